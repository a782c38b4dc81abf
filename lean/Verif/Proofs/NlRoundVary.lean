import Verif.Proofs.NlRoundSparse
import Verif.Proofs.NlRoundAccurate

/-
Gradients of the objective in rounded arithmetic, for variables on which it does not depend.
-/
namespace Mpc.NlSpec
set_option linter.unusedSectionVars false

variable {d : Dims} {K : Type} [Field K] [LinearOrder K] [IsStrictOrderedRing K] {R : Rounding K}
  {φ : Traj (d.ph + 1) d.nx K → Traj (d.ph + 1) d.nu K → K → K} {X : Traj (d.ph + 1) d.nx K}
  {U : Traj (d.ph + 1) d.nu K} {e M t E : K}

theorem small_quot (he : R.eps ≤ 1 / 8) {N h : K} (ht : 0 < t) (hh : 3 / 4 * t ≤ h) (hN : |N| ≤ E) : |R.rnd (R.rnd N / h)| ≤ 2 * E / t := by
  have hE : 0 ≤ E := (abs_nonneg _).trans hN
  have hp : 0 < h := lt_of_lt_of_le (by linarith) hh
  have rb : ∀ {x B : K}, |x| ≤ B → |R.rnd x| ≤ 9 / 8 * B := by
    intro x B hx
    have h1 := R.err x
    have h2 := abs_add_le (R.rnd x - x) x
    rw [sub_add_cancel] at h2
    have h3 := mul_le_mul_of_nonneg_right he (abs_nonneg x)
    linarith
  have h1 := rb hN
  have h2 : |R.rnd N / h| ≤ 9 / 8 * E / (3 / 4 * t) := by
    rw [abs_div, abs_of_pos hp]
    exact div_le_div₀ (by linarith) h1 (by linarith) hh
  refine (rb h2).trans ?_
  rw [← mul_div_assoc, div_le_div_iff₀ (by linarith) ht]
  have : 0 ≤ E * t := mul_nonneg hE ht.le
  linarith

/-- replacing the perturbed entries by the original ones -/
theorem unbump {q : Nat} {Y Y' : Traj (d.ph + 1) q K} {P : Nat → Nat → Prop} [∀ k a, Decidable (P k a)] {ρ : Nat → Nat → K}
    (h : ∀ (k : Fin (d.ph + 1)) (a : Fin q), ¬ P k a → |Y' k a - Y k a| ≤ ρ k a) (hρ : ∀ (k : Fin (d.ph + 1)) (a : Fin q), 0 ≤ ρ k a) :
    ∃ Z, Near ρ Y Z ∧ AgreeBut P Y' Z := by
  refine ⟨fun k a => if P k a then Y k a else Y' k a, fun k a => ?_, fun k a hh => by dsimp only; rw [if_neg hh]⟩
  dsimp only
  split_ifs with hp
  · rw [sub_self, abs_zero]; exact hρ k a
  · exact h k a hp

theorem ObjDiffR.small (he : R.eps ≤ 1 / 8) (hb : Bounded M X U e) (ht : 0 < t) (ht1 : t ≤ 1 / 16) {hx hu : Nat → K}
    (hx1 : ∀ a, 3 / 4 * t ≤ hx a) (hx2 : ∀ a, hx a ≤ 2 * t * M) (hu1 : ∀ b, 3 / 4 * t ≤ hu b) (hu2 : ∀ b, hu b ≤ 2 * t * M)
    {hs : K} {gx gu : Nat → Nat → K} {ge : K} (hch : 0 < d.ch) (hle : d.ch ≤ d.ph)
    (hd : ObjDiffR R d φ X U e hx hu hs (driftX R X fun _ a => hx a) (driftU R U fun _ b => hu b) gx gu ge)
    (hv : VariesAtMost φ X U e (7 * R.eps * M) E) :
    (∀ k a, k < d.ph → a < d.nx → IgnoresState φ (k + 1) a → |gx k a| ≤ 2 * E / t) ∧
    (∀ k b, k < d.ph → b < d.nu → IgnoresInput d φ (min k (d.ch - 1)) b → |gu k b| ≤ 2 * E / t) ∧
    (IgnoresSlack φ → ge = 0) := by
  have h0 := R.eps_nonneg
  have hM := hb.one
  have hM0 : 0 ≤ R.eps * M := mul_nonneg h0 (by linarith)
  have dX := hb.driftX (R := R) he ht1 (hx := fun _ a => hx a) (fun _ a => hx2 a)
  have dU := hb.driftU (R := R) he ht1 (hu := fun _ b => hu b) (fun _ b => hu2 b)
  have dX' : ∀ k a, driftX R X (fun _ a => hx a) k a ≤ if k = 0 then 0 else 7 * R.eps * M := by
    intro k a
    split_ifs with hk
    · unfold driftX; rw [if_pos hk]
    · exact (dX k a).trans (by linarith)
  have dU' : ∀ k b, driftU R U (fun _ b => hu b) k b ≤ 7 * R.eps * M := fun k b => (dU k b).trans (by linarith)
  have nX : ∀ (k : Fin (d.ph + 1)) (a : Fin d.nx), (0 : K) ≤ if (k : Nat) = 0 then 0 else 7 * R.eps * M := by
    intro k a; split_ifs <;> linarith
  have reflU : Near (fun _ _ => 7 * R.eps * M) U U := fun k a => by rw [sub_self, abs_zero]; linarith
  have hX' : Near (fun k _ => if k = 0 then 0 else 7 * R.eps * M) X (restoredF R.rnd X fun _ a => hx a) :=
    (restoredF_near he fun _ a => lt_of_lt_of_le (by linarith) (hx1 a)).mono dX'
  refine ⟨?_, ?_, ?_⟩
  · intro k a hk ha hi
    obtain ⟨X', h1, h4⟩ := hd.states k a hk ha
    rw [h4]
    refine small_quot he ht (hx1 a) ?_
    obtain ⟨Z, hz, ha'⟩ := unbump (Y := X) (Y' := X') (P := fun k' a' => k' = k + 1 ∧ a' = a)
      (ρ := fun k _ => if k = 0 then 0 else 7 * R.eps * M) (fun k' a' hn => by
        have := h1 k' a'
        rw [bump, if_neg hn] at this
        exact this.trans (dX' _ _)) nX
    rw [hi X' Z U e ha']
    exact hv Z U hz reflU
  · intro k b hk hb' hi
    have key : ∀ U' : Traj (d.ph + 1) d.nu K, (∀ (k' : Fin (d.ph + 1)) (b' : Fin d.nu), ¬ (min (k' : Nat) (d.ch - 1) = min k (d.ch - 1) ∧ (b' : Nat) = b) →
        |U' k' b' - U k' b'| ≤ 7 * R.eps * M) →
        |φ (restoredF R.rnd X fun _ a => hx a) U' e - φ X U e| ≤ E := by
      intro U' hU'
      obtain ⟨Z, hz, ha'⟩ := unbump (Y := U) (Y' := U') (P := fun k' b' => min k' (d.ch - 1) = min k (d.ch - 1) ∧ b' = b)
        (ρ := fun _ _ => 7 * R.eps * M) hU' (fun _ _ => by linarith)
      rw [hi _ U' Z e ha']
      exact hv _ Z hX' hz
    by_cases hl : k + 1 < d.ph
    · obtain ⟨U', h1, h4⟩ := hd.inputs k b hl hb'
      rw [h4]
      refine small_quot he ht (hu1 b) (key U' fun k' b' hn => ?_)
      have := h1 k' b'
      rw [bump, if_neg (fun hh => hn ⟨by rw [hh.1], hh.2⟩)] at this
      exact this.trans (dU' _ _)
    · obtain rfl : k = d.ph - 1 := by omega
      obtain ⟨U', h1, h4⟩ := hd.last b hb'
      rw [h4]
      refine small_quot he ht (hu1 b) (key U' fun k' b' hn => ?_)
      have := h1 k' b'
      rw [bump, if_neg (fun hh => hn ⟨by rw [hh.1]; omega, hh.2⟩), bump, if_neg (fun hh => hn ⟨by rw [hh.1], hh.2⟩)] at this
      exact this.trans (dU' _ _)
  · intro hi
    obtain ⟨U', -, h4⟩ := hd.slack
    rw [h4]
    exact quot_zero (hi _ _ _ _)

theorem SmallWhereIgnored.of (hE : 0 ≤ E) (ht : 0 < t) (hch : 0 < d.ch) (hle : d.ch ≤ d.ph) {sx su : Nat → K} {gx gu : Nat → Nat → K}
    {ge : K} {g : Nat → K} (hr : RowOfR R.rnd d false sx su gx gu ge g)
    (h : (∀ k a, k < d.ph → a < d.nx → IgnoresState φ (k + 1) a → |gx k a| ≤ 2 * E / t) ∧
      (∀ k b, k < d.ph → b < d.nu → IgnoresInput d φ (min k (d.ch - 1)) b → |gu k b| ≤ 2 * E / t) ∧ (IgnoresSlack φ → ge = 0)) :
    SmallWhereIgnored R d t E su φ g := by
  obtain ⟨h1, h2, h3⟩ := h
  have hp : 0 ≤ 2 * E / t := div_nonneg (by linarith) ht.le
  refine ⟨fun k a hk ha hi => ?_, fun j b hj hb hi => ?_, fun hi => by rw [hr.slack]; exact h3 hi⟩
  · rw [hr.states k a hk ha, if_neg (by simp)]
    exact h1 k a hk ha hi
  · rw [hr.inputs j b hj hb]
    -- steps which use another input do not matter
    have e : (fun k => if min k (d.ch - 1) = j then R.rnd (su b * gu k b) else 0)
        = fun k => if min k (d.ch - 1) = j then R.rnd (su b * (if min k (d.ch - 1) = j then gu k b else 0)) else 0 := by
      funext k; split_ifs <;> rfl
    rw [e]
    have := block_err (R := R) hch hle (j := j) (s := su b) (G := fun k => if min k (d.ch - 1) = j then gu k b else 0) (D := fun _ => 0)
      (ε := fun _ => 2 * E / t) (fun k hk => by
        split_ifs with hm
        · rw [sub_zero]; exact h2 k b hk hb (by rw [hm]; exact hi)
        · rw [sub_zero, abs_zero]; exact hp) (fun _ _ => hp)
    simp only [abs_zero, ite_self, Finset.sum_const_zero, mul_zero, sub_zero] at this
    refine this.trans (scaleErr_mono ?_ le_rfl)
    refine (Finset.sum_le_sum (g := fun _ => 2 * E / t) fun k _ => ?_).trans (le_of_eq ?_)
    · split_ifs
      · exact le_rfl
      · exact hp
    · rw [Finset.sum_const, Finset.card_range, nsmul_eq_mul]

end Mpc.NlSpec
