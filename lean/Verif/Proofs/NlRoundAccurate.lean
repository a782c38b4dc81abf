import Verif.Proofs.NlRoundBounds
import Verif.Proofs.NlAffine
import Mathlib.Algebra.BigOperators.Field

/-
Accuracy of the gradients in rounded arithmetic, for functions which are nearly affine around the point.
-/
namespace Mpc.NlSpec
open Exec
set_option linter.unusedSectionVars false

variable {d : Dims} {K : Type} [Field K] [LinearOrder K] [IsStrictOrderedRing K] {R : Rounding K}
variable {r n m : Nat} {c0 : K} {α β : Nat → Nat → K} {γ : K}

theorem affine_is : IsAffine (affine (r := r) (n := n) (m := m) c0 α β γ) c0 α β γ := fun _ _ _ => rfl

/-! ### Differences of affine functions -/

theorem affine_agreeX {X Y : Traj r n K} {U : Traj r m K} {e : K} {k a : Nat} (hk : k < r) (ha : a < n)
    (h : AgreeBut (fun k' a' => k' = k ∧ a' = a) X Y) :
    affine c0 α β γ X U e - affine c0 α β γ Y U e = α k a * (X ⟨k, hk⟩ ⟨a, ha⟩ - Y ⟨k, hk⟩ ⟨a, ha⟩) := by
  rw [affine_is.diff Y X U U e e, sub_self, mul_zero, add_zero]
  simp only [sub_self, mul_zero, Finset.sum_const_zero, add_zero]
  rw [← sum_ind α hk ha]
  refine Finset.sum_congr rfl fun k' _ => Finset.sum_congr rfl fun a' _ => ?_
  split_ifs with hh
  · obtain ⟨rfl, rfl⟩ := hh; rfl
  · rw [h k' a' hh, sub_self]

theorem affine_agreeU {X : Traj r n K} {U V : Traj r m K} {e : K} {k b : Nat} (hk : k < r) (hb : b < m)
    (h : AgreeBut (fun k' b' => k' = k ∧ b' = b) U V) :
    affine c0 α β γ X U e - affine c0 α β γ X V e = β k b * (U ⟨k, hk⟩ ⟨b, hb⟩ - V ⟨k, hk⟩ ⟨b, hb⟩) := by
  rw [affine_is.diff X X V U e e, sub_self, mul_zero, add_zero]
  simp only [sub_self, mul_zero, Finset.sum_const_zero, zero_add]
  rw [← sum_ind β hk hb]
  refine Finset.sum_congr rfl fun k' _ => Finset.sum_congr rfl fun a' _ => ?_
  split_ifs with hh
  · obtain ⟨rfl, rfl⟩ := hh; rfl
  · rw [h k' a' hh, sub_self]

theorem affine_agreeU2 {X : Traj r n K} {U V : Traj r m K} {e : K} {k k2 b : Nat} (hk : k < r) (hk2 : k2 < r) (hkk : k ≠ k2) (hb : b < m)
    (h : AgreeBut (fun k' b' => (k' = k ∨ k' = k2) ∧ b' = b) U V) :
    affine c0 α β γ X U e - affine c0 α β γ X V e = β k b * (U ⟨k, hk⟩ ⟨b, hb⟩ - V ⟨k, hk⟩ ⟨b, hb⟩)
      + β k2 b * (U ⟨k2, hk2⟩ ⟨b, hb⟩ - V ⟨k2, hk2⟩ ⟨b, hb⟩) := by
  let W : Traj r m K := fun k' b' => if (k' : Nat) = k ∧ (b' : Nat) = b then U k' b' else V k' b'
  have h1 : AgreeBut (fun k' b' => k' = k ∧ b' = b) W V := fun k' b' hh => if_neg hh
  have h2 : AgreeBut (fun k' b' => k' = k2 ∧ b' = b) U W := by
    intro k' b' hh
    show U k' b' = if _ then _ else _
    split_ifs with hc
    · rfl
    · exact h k' b' (by tauto)
  have e1 := affine_agreeU (c0 := c0) (α := α) (β := β) (γ := γ) (X := X) (e := e) hk hb h1
  have e2 := affine_agreeU (c0 := c0) (α := α) (β := β) (γ := γ) (X := X) (e := e) hk2 hb h2
  have w1 : W ⟨k, hk⟩ ⟨b, hb⟩ = U ⟨k, hk⟩ ⟨b, hb⟩ := if_pos ⟨rfl, rfl⟩
  have w2 : W ⟨k2, hk2⟩ ⟨b, hb⟩ = V ⟨k2, hk2⟩ ⟨b, hb⟩ := if_neg (fun hc => hkk hc.1.symm)
  rw [w1] at e1
  rw [w2] at e2
  linarith

/-- moving every entry by at most `δ` -/
theorem affine_near {X X' : Traj r n K} {U U' : Traj r m K} {e : K} {δ : K} (hX : Near (fun _ _ => δ) X X')
    (hU : Near (fun _ _ => δ) U U') :
    |affine c0 α β γ X' U' e - affine c0 α β γ X U e|
      ≤ (∑ k ∈ Finset.range r, ∑ a ∈ Finset.range n, |α k a| + ∑ k ∈ Finset.range r, ∑ b ∈ Finset.range m, |β k b|) * δ := by
  rw [affine_is.diff X X' U U' e e, sub_self, mul_zero, add_zero]
  refine (abs_add_le _ _).trans ?_
  rw [add_mul, Finset.sum_range, Finset.sum_range]
  have hs : ∀ (q : Nat) (c : Nat → Nat → K) (A B : Traj r q K), Near (fun _ _ => δ) A B →
      |∑ k : Fin r, ∑ a : Fin q, c k a * (B k a - A k a)| ≤ (∑ k : Fin r, ∑ a ∈ Finset.range q, |c k a|) * δ := by
    intro q c A B hAB
    refine (Finset.abs_sum_le_sum_abs _ _).trans ?_
    rw [Finset.sum_mul]
    refine Finset.sum_le_sum fun k _ => (Finset.abs_sum_le_sum_abs _ _).trans ?_
    rw [Finset.sum_range, Finset.sum_mul]
    refine Finset.sum_le_sum fun a _ => ?_
    rw [abs_mul]
    exact mul_le_mul_of_nonneg_left (hAB k a) (abs_nonneg _)
  exact add_le_add (hs n α X X' hX) (hs m β U U' hU)

/-! ### The visited points are near the point -/

theorem drift_le (he : R.eps ≤ 1 / 8) {t h x M : K} (ht1 : t ≤ 1 / 16) (hh2 : h ≤ 2 * t * M) (hx : |x| ≤ M) :
    drift R x h ≤ 27 / 4 * R.eps * M := by
  have h0 := R.eps_nonneg
  have hM : 0 ≤ M := (abs_nonneg x).trans hx
  have := mul_le_mul_of_nonneg_right ht1 hM
  unfold drift
  rw [show 6 * R.eps * (|x| + h) = R.eps * (6 * (|x| + h)) by ring, show 27 / 4 * R.eps * M = R.eps * (27 / 4 * M) by ring]
  exact mul_le_mul_of_nonneg_left (by linarith) h0

variable {X : Traj (d.ph + 1) d.nx K} {U : Traj (d.ph + 1) d.nu K} {e M t : K}

theorem Bounded.entryX (h : Bounded M X U e) (k a : Nat) : |entry X k a| ≤ M := by
  unfold entry
  split_ifs
  · exact h.states _ _
  · rw [abs_zero]; linarith [h.one]

theorem Bounded.entryU (h : Bounded M X U e) (k a : Nat) : |entry U k a| ≤ M := by
  unfold entry
  split_ifs
  · exact h.inputs _ _
  · rw [abs_zero]; linarith [h.one]

theorem Bounded.driftX (h : Bounded M X U e) (he : R.eps ≤ 1 / 8) (ht1 : t ≤ 1 / 16) {hx : Nat → Nat → K}
    (hh : ∀ k a, hx k a ≤ 2 * t * M) (k a : Nat) : NlSpec.driftX R X hx k a ≤ 27 / 4 * R.eps * M := by
  unfold NlSpec.driftX
  split_ifs
  · exact mul_nonneg (mul_nonneg (by norm_num) R.eps_nonneg) (by linarith [h.one])
  · exact drift_le he ht1 (hh _ _) (h.entryX _ _)

theorem Bounded.driftU (h : Bounded M X U e) (he : R.eps ≤ 1 / 8) (ht1 : t ≤ 1 / 16) {hu : Nat → Nat → K}
    (hh : ∀ k a, hu k a ≤ 2 * t * M) (k a : Nat) : NlSpec.driftU R U hu k a ≤ 27 / 4 * R.eps * M :=
  drift_le he ht1 (hh _ _) (h.entryU _ _)

theorem near_of_bump {q : Nat} {Y Y' : Traj r q K} {ρ : Nat → Nat → K} {k a : Nat} {h δ H : K} (hn : Near ρ (bump Y k a h) Y')
    (hρ : ∀ k a, ρ k a ≤ δ) (hh : |h| ≤ H) : Near (fun _ _ => H + δ) Y Y' := by
  intro k' a'
  have h1 := (hn k' a').trans (hρ _ _)
  have h2 := bump_sub Y k a h k' a'
  have h3 := abs_sub_le (Y' k' a') (bump Y k a h k' a') (Y k' a')
  rw [h2] at h3
  have h4 : |if (k' : Nat) = k ∧ (a' : Nat) = a then h else 0| ≤ H := by
    split_ifs
    · exact hh
    · rw [abs_zero]; exact (abs_nonneg h).trans hh
  linarith

theorem near_of_bump2 {q : Nat} {Y Y' : Traj r q K} {ρ : Nat → Nat → K} {k k2 a : Nat} (hk : k ≠ k2) {h δ H : K}
    (hn : Near ρ (bump (bump Y k a h) k2 a h) Y') (hρ : ∀ k a, ρ k a ≤ δ) (hh : |h| ≤ H) : Near (fun _ _ => H + δ) Y Y' := by
  intro k' a'
  have h1 := (hn k' a').trans (hρ _ _)
  have h2 : bump (bump Y k a h) k2 a h k' a' - Y k' a' = if ((k' : Nat) = k ∨ (k' : Nat) = k2) ∧ (a' : Nat) = a then h else 0 := by
    unfold bump
    split_ifs <;> first | (exfalso; omega) | ring
  have h3 := abs_sub_le (Y' k' a') (bump (bump Y k a h) k2 a h k' a') (Y k' a')
  rw [h2] at h3
  have h4 : |if ((k' : Nat) = k ∨ (k' : Nat) = k2) ∧ (a' : Nat) = a then h else 0| ≤ H := by
    split_ifs
    · exact hh
    · rw [abs_zero]; exact (abs_nonneg h).trans hh
  linarith

theorem Near.mono {q : Nat} {Y Y' : Traj r q K} {ρ ρ' : Nat → Nat → K} (h : Near ρ Y Y') (hh : ∀ k a, ρ k a ≤ ρ' k a) : Near ρ' Y Y' :=
  fun k a => (h k a).trans (hh k a)

theorem restoredC_near (he : R.eps ≤ 1 / 8) {hx : Nat → Nat → K} (hpos : ∀ k a, 0 < hx k a) :
    Near (driftX R X hx) X (restoredC R.rnd X hx) := by
  intro k a
  unfold restoredC driftX
  split_ifs with hk
  · rw [sub_self, abs_zero]
  · have : entry X k a = X k a := by unfold entry; rw [dif_pos ⟨k.2, a.2⟩]
    rw [this]
    exact Rounding.round_trip he (hpos _ _)

theorem restoredF_near (he : R.eps ≤ 1 / 8) {hx : Nat → Nat → K} (hpos : ∀ k a, 0 < hx k a) :
    Near (driftX R X hx) X (restoredF R.rnd X hx) := by
  intro k a
  unfold restoredF driftX
  split_ifs with hk
  · rw [sub_self, abs_zero]
  · have : entry X k a = X k a := by unfold entry; rw [dif_pos ⟨k.2, a.2⟩]
    rw [this]
    exact Rounding.back_near he (hpos _ _)

theorem entry_in {q : Nat} {Y : Traj r q K} {k a : Nat} (hk : k < r) (ha : a < q) : entry Y k a = Y ⟨k, hk⟩ ⟨a, ha⟩ := by
  unfold entry; rw [dif_pos ⟨hk, ha⟩]

theorem scale_err {s D G ε L : K} (h : |G - D| ≤ ε) (hD : |D| ≤ L) : |R.rnd (G * s) - s * D| ≤ scaleErr R 1 s ε L := by
  have h0 := R.eps_nonneg
  have h1 : |G * s - s * D| ≤ |s| * ε := by
    rw [show G * s - s * D = s * (G - D) by ring, abs_mul]
    exact mul_le_mul_of_nonneg_left h (abs_nonneg _)
  have h2 : |s * D| ≤ |s| * L := by rw [abs_mul]; exact mul_le_mul_of_nonneg_left hD (abs_nonneg _)
  refine (R.near h2 h1).trans (le_of_eq ?_)
  unfold scaleErr Rounding.gamma
  ring

theorem gamma_succ (R : Rounding K) (n : Nat) : R.gamma (n + 1) = R.gamma n + R.eps * (1 + R.gamma n) := by
  unfold Rounding.gamma; ring

/-- the entry of a decision input, from the derivatives of the steps which use it -/
theorem block_err (hch : 0 < d.ch) (hle : d.ch ≤ d.ph) {j : Nat} {s : K} {G D ε : Nat → K} (h : ∀ k, k < d.ph → |G k - D k| ≤ ε k)
    (hε : ∀ k, k < d.ph → 0 ≤ ε k) :
    |sumR R.rnd d.ph (fun k => if min k (d.ch - 1) = j then R.rnd (s * G k) else 0)
        - s * ∑ k ∈ Finset.range d.ph, (if min k (d.ch - 1) = j then D k else 0)|
      ≤ scaleErr R (d.ph + 1) s (∑ k ∈ Finset.range d.ph, if min k (d.ch - 1) = j then ε k else 0)
          (∑ k ∈ Finset.range d.ph, if min k (d.ch - 1) = j then |D k| else 0) := by
  have h0 := R.eps_nonneg
  have key := sumR_err (R := R) (n := d.ph) (f := fun k => if min k (d.ch - 1) = j then R.rnd (s * G k) else 0)
    (g := fun k => if min k (d.ch - 1) = j then s * D k else 0)
    (B := fun k => if min k (d.ch - 1) = j then scaleErr R 1 s (ε k) |D k| else 0) (by
      intro k hk
      split_ifs
      · rw [mul_comm s (G k)]; exact scale_err (h k hk) le_rfl
      · rw [sub_self, abs_zero])
  have e1 : ∑ k ∈ Finset.range d.ph, (if min k (d.ch - 1) = j then s * D k else 0)
      = s * ∑ k ∈ Finset.range d.ph, (if min k (d.ch - 1) = j then D k else 0) := by
    rw [Finset.mul_sum]
    refine Finset.sum_congr rfl fun k _ => ?_
    split_ifs <;> ring
  have e2 : ∑ k ∈ Finset.range d.ph, |if min k (d.ch - 1) = j then s * D k else 0|
      = |s| * ∑ k ∈ Finset.range d.ph, (if min k (d.ch - 1) = j then |D k| else 0) := by
    rw [Finset.mul_sum]
    refine Finset.sum_congr rfl fun k _ => ?_
    split_ifs
    · exact abs_mul _ _
    · rw [abs_zero, mul_zero]
  have e3 : ∑ k ∈ Finset.range d.ph, (if min k (d.ch - 1) = j then scaleErr R 1 s (ε k) |D k| else 0)
      = |s| * ((1 + R.eps) * (∑ k ∈ Finset.range d.ph, if min k (d.ch - 1) = j then ε k else 0)
        + R.eps * ∑ k ∈ Finset.range d.ph, if min k (d.ch - 1) = j then |D k| else 0) := by
    rw [Finset.mul_sum, Finset.mul_sum, ← Finset.sum_add_distrib, Finset.mul_sum]
    refine Finset.sum_congr rfl fun k _ => ?_
    unfold scaleErr Rounding.gamma
    split_ifs <;> ring
  rw [e1, e2, e3] at key
  refine key.trans (le_of_eq ?_)
  unfold scaleErr
  rw [gamma_succ]
  ring

theorem scaleErr_mono {n : Nat} {s ε ε' L L' : K} (h : ε ≤ ε') (hL : L ≤ L') : scaleErr R n s ε L ≤ scaleErr R n s ε' L' := by
  have := R.gamma_nonneg n
  unfold scaleErr
  refine mul_le_mul_of_nonneg_left ?_ (abs_nonneg _)
  exact add_le_add (mul_le_mul_of_nonneg_left h (by linarith)) (mul_le_mul_of_nonneg_left hL this)

/-- a sum over all steps is the sum over the first `ph`, with the last two together -/
theorem blockSum_eq (hch : 0 < d.ch) (hle : d.ch ≤ d.ph) (j : Nat) (f : Nat → K) :
    blockSum d j f = ∑ k ∈ Finset.range d.ph, if min k (d.ch - 1) = j then (if k + 1 = d.ph then f (d.ph - 1) + f d.ph else f k) else 0 := by
  unfold blockSum
  obtain ⟨p, hp⟩ : ∃ p, d.ph = p + 1 := ⟨d.ph - 1, by omega⟩
  rw [hp, Finset.sum_range_succ, Finset.sum_range_succ, Finset.sum_range_succ (n := p)]
  have em : min (p + 1) (d.ch - 1) = min p (d.ch - 1) := by omega
  rw [em, add_assoc]
  congr 1
  · refine Finset.sum_congr rfl fun k hk => ?_
    have := Finset.mem_range.1 hk
    rw [if_neg (c := k + 1 = p + 1) (by omega)]
  · rw [if_pos rfl, Nat.add_sub_cancel]
    split_ifs <;> ring

/-! ### Constraints -/

variable {η : K} {hu : Nat → K}

theorem NearlyAffine.nonneg {φ : Traj r n K → Traj r m K → K → K} {X : Traj r n K} {U : Traj r m K} {ρ : K}
    (h : NearlyAffine φ c0 α β γ X U e ρ η) (hρ : 0 ≤ ρ) : 0 ≤ η :=
  (abs_nonneg _).trans (h X U e (fun _ _ => by rw [sub_self, abs_zero]; exact hρ) (fun _ _ => by rw [sub_self, abs_zero]; exact hρ)
    (by rw [sub_self, abs_zero]; exact hρ))

theorem radius_nonneg (ht : 0 < t) (hM : 1 ≤ M) : 0 ≤ (2 * t + 7 * R.eps) * M :=
  mul_nonneg (by have := R.eps_nonneg; linarith) (by linarith)

/-- difference of two values, from the difference of the affine function -/
theorem values_err {p q ap aq x η δ : K} (h1 : |p - ap| ≤ η) (h2 : |q - aq| ≤ η) (h3 : |ap - aq - x| ≤ δ) : |p - q - x| ≤ 2 * η + δ := by
  have e : p - q - x = (p - ap) - (q - aq) + (ap - aq - x) := by ring
  rw [e]
  have := abs_add_le ((p - ap) - (q - aq)) (ap - aq - x)
  have := abs_sub (p - ap) (q - aq)
  linarith

theorem step2_bounds (he : R.eps ≤ 1 / 8) {h : K} (hh : 3 / 4 * t ≤ h) (ht : 0 < t) : t / 2 ≤ R.rnd (2 * h) := by
  have := (rnd_bounds he (show 0 ≤ 2 * h by linarith)).1
  linarith

theorem coeff_err {c x H δ : K} (h : |x - H| ≤ δ) : |c * x - H * c| ≤ |c| * δ := by
  rw [show c * x - H * c = c * (x - H) by ring, abs_mul]
  exact mul_le_mul_of_nonneg_left h (abs_nonneg _)

/-- the quotient with respect to the slack, at any point near the given one -/
theorem slack_err (he : R.eps ≤ 1 / 8) (hb : Bounded M X U e) (ht : 0 < t) (ht1 : t ≤ 1 / 16) {hs : K} (hs1 : t * t / 2 ≤ hs)
    (hs2 : hs ≤ 2 * t * M) (φ : Traj (d.ph + 1) d.nx K → Traj (d.ph + 1) d.nu K → K → K)
    (hφ : NearlyAffine φ c0 α β γ X U e ((2 * t + 7 * R.eps) * M) η)
    {X' : Traj (d.ph + 1) d.nx K} {U' : Traj (d.ph + 1) d.nu K} (hX' : Near (fun _ _ => (2 * t + 7 * R.eps) * M) X X')
    (hU' : Near (fun _ _ => (2 * t + 7 * R.eps) * M) U U') :
    |R.rnd (R.rnd (φ X' U' (R.rnd (e + hs)) - φ X' U' (R.rnd (e - hs))) / R.rnd (2 * hs)) - γ| ≤ derivErr R (t * t) η |γ| M := by
  have h0 := R.eps_nonneg
  have hM := hb.one
  have hM0 : 0 ≤ R.eps * M := mul_nonneg h0 (by linarith)
  have hη := hφ.nonneg (radius_nonneg ht hM)
  have tM : 0 ≤ t * M := mul_nonneg ht.le (by linarith)
  have tt : 0 < t * t := mul_pos ht ht
  have ps : 0 < hs := lt_of_lt_of_le (by linarith) hs1
  have tt1 : t * t ≤ 1 / 16 := by nlinarith
  have hsM : hs ≤ 1 / 8 * M := by
    have := mul_le_mul_of_nonneg_right ht1 (show 0 ≤ M by linarith)
    linarith
  have r1 : |R.rnd (e + hs) - (e + hs)| ≤ R.eps * (M + 1 / 8 * M) :=
    R.err_le ((abs_add_le _ _).trans (by rw [abs_of_pos ps]; exact add_le_add hb.slack hsM))
  have r2 : |R.rnd (e - hs) - (e - hs)| ≤ R.eps * (M + 1 / 8 * M) :=
    R.err_le ((abs_sub _ _).trans (by rw [abs_of_pos ps]; exact add_le_add hb.slack hsM))
  have r3 : |R.rnd (2 * hs) - 2 * hs| ≤ R.eps * (2 * (1 / 8 * M)) := R.err_le (by rw [abs_of_pos (by linarith)]; linarith)
  have n1 : |R.rnd (e + hs) - e| ≤ (2 * t + 7 * R.eps) * M := by
    have := abs_add_le (R.rnd (e + hs) - (e + hs)) hs
    rw [show R.rnd (e + hs) - (e + hs) + hs = R.rnd (e + hs) - e by ring, abs_of_pos ps] at this
    linarith
  have n2 : |R.rnd (e - hs) - e| ≤ (2 * t + 7 * R.eps) * M := by
    have := abs_sub (R.rnd (e - hs) - (e - hs)) hs
    rw [show R.rnd (e - hs) - (e - hs) - hs = R.rnd (e - hs) - e by ring, abs_of_pos ps] at this
    linarith
  have hH : t * t / 2 ≤ R.rnd (2 * hs) := by
    have := (rnd_bounds he (show 0 ≤ 2 * hs by linarith)).1
    linarith
  refine quot_err he tt (by linarith) hH hM le_rfl hη ?_
  rw [mul_assoc, mul_comm |γ| M, ← mul_assoc, mul_comm _ |γ|]
  refine values_err (hφ _ _ _ hX' hU' n1) (hφ _ _ _ hX' hU' n2) ?_
  rw [affine_is.diff]
  simp only [sub_self, mul_zero, Finset.sum_const_zero, zero_add]
  refine coeff_err ?_
  have e1 : R.rnd (e + hs) - R.rnd (e - hs) - R.rnd (2 * hs)
    = (R.rnd (e + hs) - (e + hs)) - (R.rnd (e - hs) - (e - hs)) - (R.rnd (2 * hs) - 2 * hs) := by ring
  rw [e1]
  have i1 := abs_sub ((R.rnd (e + hs) - (e + hs)) - (R.rnd (e - hs) - (e - hs))) (R.rnd (2 * hs) - 2 * hs)
  have i2 := abs_sub (R.rnd (e + hs) - (e + hs)) (R.rnd (e - hs) - (e - hs))
  linarith

theorem ConDiffR.accurate (he : R.eps ≤ 1 / 8) (hb : Bounded M X U e) (ht : 0 < t) (ht1 : t ≤ 1 / 16) {hx : Nat → Nat → K}
    (hx1 : ∀ k a, 3 / 4 * t ≤ hx k a) (hx2 : ∀ k a, hx k a ≤ 2 * t * M) (hu1 : ∀ b, 3 / 4 * t ≤ hu b) (hu2 : ∀ b, hu b ≤ 2 * t * M)
    {q : Nat} {φ : Traj (d.ph + 1) d.nx K → Traj (d.ph + 1) d.nu K → K → FVec q K} {hs : K} {last : Bool}
    {gx gu : Nat → Nat → Nat → K} {ge : Nat → K} (hph : 0 < d.ph)
    (hd : ConDiffR R d q φ X U e hx (fun _ b => hu b) hs last (driftX R X hx) (driftU R U fun _ b => hu b) gx gu ge) (c : Fin q)
    (hφ : NearlyAffine (fun X U e => φ X U e c) c0 α β γ X U e ((2 * t + 7 * R.eps) * M) η)
    (hlast : last = true ∨ ∀ b, b < d.nu → β d.ph b = 0) :
    (∀ k a, k < d.ph → a < d.nx → |gx c k a - α (k + 1) a| ≤ derivErr R t η |α (k + 1) a| M) ∧
    (∀ k b, k < d.ph → b < d.nu → |gu c k b - (if k + 1 = d.ph then β (d.ph - 1) b + β d.ph b else β k b)|
      ≤ derivErr R t η (if k + 1 = d.ph then |β (d.ph - 1) b| + |β d.ph b| else |β k b|) M) ∧
    (t * t / 2 ≤ hs → hs ≤ 2 * t * M → |ge c - γ| ≤ derivErr R (t * t) η |γ| M) := by
  have h0 := R.eps_nonneg
  have hM := hb.one
  have hM0 : 0 ≤ R.eps * M := mul_nonneg h0 (by linarith)
  have hη := hφ.nonneg (radius_nonneg ht hM)
  have px : ∀ k a, 0 < hx k a := fun k a => lt_of_lt_of_le (by linarith) (hx1 k a)
  have pu : ∀ b, 0 < hu b := fun b => lt_of_lt_of_le (by linarith) (hu1 b)
  have dX := hb.driftX (R := R) he ht1 hx2
  have dU := hb.driftU (R := R) he ht1 (hu := fun _ b => hu b) (fun _ b => hu2 b)
  have rad : 2 * t * M + 27 / 4 * R.eps * M ≤ (2 * t + 7 * R.eps) * M := by linarith
  have tM : 0 ≤ t * M := mul_nonneg ht.le (by linarith)
  have refl : ∀ {q : Nat} (Y : Traj (d.ph + 1) q K), Near (fun _ _ => (2 * t + 7 * R.eps) * M) Y Y := fun Y k a => by
    rw [sub_self, abs_zero]; exact radius_nonneg ht hM
  have hX' : Near (fun _ _ => (2 * t + 7 * R.eps) * M) X (restoredC R.rnd X hx) :=
    (restoredC_near he px).mono fun k a => (dX k a).trans (by linarith)
  have abs_h : ∀ {h : K}, 0 < h → h ≤ 2 * t * M → |h| ≤ 2 * t * M ∧ |(-h)| ≤ 2 * t * M := fun h1 h2 => by
    rw [abs_neg, abs_of_pos h1]; exact ⟨h2, h2⟩
  have e0 : |e - e| ≤ (2 * t + 7 * R.eps) * M := by rw [sub_self, abs_zero]; exact radius_nonneg ht hM
  -- one input entry
  have one : ∀ k b (hk : k < d.ph) (hb' : b < d.nu) (Up Um : Traj (d.ph + 1) d.nu K),
      Near (driftU R U fun _ b => hu b) (bump U k b (hu b)) Up → Near (driftU R U fun _ b => hu b) (bump U k b (-hu b)) Um →
      AgreeBut (fun k' b' => k' = k ∧ b' = b) Up Um →
      |R.rnd (R.rnd (φ (restoredC R.rnd X hx) Up e c - φ (restoredC R.rnd X hx) Um e c) / R.rnd (2 * hu b)) - β k b|
        ≤ derivErr R t η |β k b| M := by
    intro k b hk hb' Up Um h1 h2 h3
    refine quot_err he ht (by linarith) (step2_bounds he (hu1 b) ht) hM le_rfl hη ?_
    rw [mul_assoc, mul_comm |β k b| M, ← mul_assoc, mul_comm _ |β k b|]
    refine values_err (hφ _ _ _ hX' ((near_of_bump h1 dU (abs_h (pu b) (hu2 b)).1).mono fun _ _ => rad) e0)
      (hφ _ _ _ hX' ((near_of_bump h2 dU (abs_h (pu b) (hu2 b)).2).mono fun _ _ => rad) e0) ?_
    rw [affine_agreeU (by omega) hb' h3]
    refine coeff_err (ends_err he (x := U ⟨k, by omega⟩ ⟨b, hb'⟩) (pu b) ht ht1 (hu2 b) (hb.inputs _ _) ?_ ?_)
    · have := h1 ⟨k, by omega⟩ ⟨b, hb'⟩
      simp only [bump, driftU, entry_in (show k < d.ph + 1 by omega) hb', and_self, if_true] at this
      exact this
    · have := h2 ⟨k, by omega⟩ ⟨b, hb'⟩
      simp only [bump, driftU, entry_in (show k < d.ph + 1 by omega) hb', and_self, if_true] at this
      exact this
  refine ⟨?_, ?_, ?_⟩
  · intro k a hk ha
    obtain ⟨Xp, Xm, h1, h2, h3, h4⟩ := hd.states k a hk ha
    rw [h4 c]
    refine quot_err he ht (by linarith) (step2_bounds he (hx1 k a) ht) hM le_rfl hη ?_
    rw [mul_assoc, mul_comm |α (k + 1) a| M, ← mul_assoc, mul_comm _ |α (k + 1) a|]
    refine values_err (hφ _ _ _ ((near_of_bump h1 dX (abs_h (px k a) (hx2 k a)).1).mono fun _ _ => rad) (refl U) e0)
      (hφ _ _ _ ((near_of_bump h2 dX (abs_h (px k a) (hx2 k a)).2).mono fun _ _ => rad) (refl U) e0) ?_
    rw [affine_agreeX (by omega) ha h3]
    refine coeff_err (ends_err he (x := X ⟨k + 1, by omega⟩ ⟨a, ha⟩) (px k a) ht ht1 (hx2 k a) (hb.states _ _) ?_ ?_)
    · have := h1 ⟨k + 1, by omega⟩ ⟨a, ha⟩
      simp only [bump, driftX, entry_in (show k + 1 < d.ph + 1 by omega) ha, and_self, if_true, Nat.succ_ne_zero, if_false,
        Nat.add_sub_cancel] at this
      exact this
    · have := h2 ⟨k + 1, by omega⟩ ⟨a, ha⟩
      simp only [bump, driftX, entry_in (show k + 1 < d.ph + 1 by omega) ha, and_self, if_true, Nat.succ_ne_zero, if_false,
        Nat.add_sub_cancel] at this
      exact this
  · intro k b hk hb'
    by_cases hl : k + 1 = d.ph
    · rw [if_pos hl, if_pos hl]
      obtain rfl : k = d.ph - 1 := by omega
      obtain ⟨Up, Um, h1, h4⟩ := hd.lastInput b hb'
      rw [h4 c]
      by_cases hlb : last = true
      · rw [if_pos hlb] at h1
        obtain ⟨h1, h2, h3⟩ := h1
        have hne : d.ph - 1 ≠ d.ph := by omega
        refine quot_err he ht (by linarith) (step2_bounds he (hu1 b) ht) hM (abs_add_le _ _) hη ?_
        rw [show 16 * R.eps * (|β (d.ph - 1) b| + |β d.ph b|) * M
          = |β (d.ph - 1) b| * (16 * R.eps * M) + |β d.ph b| * (16 * R.eps * M) by ring]
        refine values_err (hφ _ _ _ hX' ((near_of_bump2 hne h1 dU (abs_h (pu b) (hu2 b)).1).mono fun _ _ => rad) e0)
          (hφ _ _ _ hX' ((near_of_bump2 hne h2 dU (abs_h (pu b) (hu2 b)).2).mono fun _ _ => rad) e0) ?_
        rw [affine_agreeU2 (by omega) (by omega) hne hb' h3]
        have ends : ∀ k (hk : k < d.ph + 1), (k = d.ph - 1 ∨ k = d.ph) →
            |Up ⟨k, hk⟩ ⟨b, hb'⟩ - Um ⟨k, hk⟩ ⟨b, hb'⟩ - R.rnd (2 * hu b)| ≤ 16 * R.eps * M := by
          intro k hk hkc
          refine ends_err he (x := U ⟨k, hk⟩ ⟨b, hb'⟩) (pu b) ht ht1 (hu2 b) (hb.inputs _ _) ?_ ?_
          · have := h1 ⟨k, hk⟩ ⟨b, hb'⟩
            simp only [bump, driftU, entry_in hk hb', and_true] at this
            rcases hkc with rfl | rfl
            · rw [if_neg hne, if_pos rfl] at this; exact this
            · rw [if_pos rfl, if_neg hne.symm] at this; exact this
          · have := h2 ⟨k, hk⟩ ⟨b, hb'⟩
            simp only [bump, driftU, entry_in hk hb', and_true] at this
            rcases hkc with rfl | rfl
            · rw [if_neg hne, if_pos rfl] at this; exact this
            · rw [if_pos rfl, if_neg hne.symm] at this; exact this
        have a1 := coeff_err (c := β (d.ph - 1) b) (ends (d.ph - 1) (by omega) (.inl rfl))
        have a2 := coeff_err (c := β d.ph b) (ends d.ph (by omega) (.inr rfl))
        refine (le_of_eq ?_).trans ((abs_add_le _ _).trans (add_le_add a1 a2))
        congr 1; ring
      · rw [if_neg hlb] at h1
        obtain ⟨h1, h2, h3⟩ := h1
        rcases hlast with hlast | hlast
        · exact absurd hlast hlb
        rw [hlast b hb', add_zero, abs_zero, add_zero]
        exact one (d.ph - 1) b (by omega) hb' Up Um h1 h2 h3
    · rw [if_neg hl, if_neg hl]
      obtain ⟨Up, Um, h1, h2, h3, h4⟩ := hd.inputs k b (by omega) hb'
      rw [h4 c]
      exact one k b hk hb' Up Um h1 h2 h3
  · intro hs1 hs2
    obtain ⟨U', h1, h4⟩ := hd.slack
    rw [h4 c]
    have hU' : Near (fun _ _ => (2 * t + 7 * R.eps) * M) U U' := h1.mono fun k a => (dU k a).trans (by linarith)
    exact slack_err he hb ht ht1 hs1 hs2 (fun X U e => φ X U e c) hφ hX' hU'

/-- the row of one constraint -/
theorem ConAccurate.of (ht : 0 < t) (hM : 1 ≤ M) (hη : 0 ≤ η) (hch : 0 < d.ch) (hle : d.ch ≤ d.ph) {sx su : Nat → K} {gx gu : Nat → Nat → K} {ge : K} {g : Nat → K}
    (hr : RowOfR R.rnd d true sx su gx gu ge g)
    (h1 : ∀ k a, k < d.ph → a < d.nx → |gx k a - α (k + 1) a| ≤ derivErr R t η |α (k + 1) a| M)
    (h2 : ∀ k b, k < d.ph → b < d.nu → |gu k b - (if k + 1 = d.ph then β (d.ph - 1) b + β d.ph b else β k b)|
      ≤ derivErr R t η (if k + 1 = d.ph then |β (d.ph - 1) b| + |β d.ph b| else |β k b|) M)
    (h3 : |ge - γ| ≤ derivErr R (t * t) η |γ| M) : ConAccurate R d t M η sx su α β γ g := by
  have h0 := R.eps_nonneg
  refine ⟨fun k a hk ha => ?_, fun j b hj hb => ?_, by rw [hr.slack]; exact h3⟩
  · rw [hr.states k a hk ha, if_pos rfl]
    exact scale_err (h1 k a hk ha) le_rfl
  · rw [hr.inputs j b hj hb, blockSum_eq hch hle, blockSum_eq hch hle]
    refine (block_err hch hle (fun k hk => h2 k b hk hb) (fun k hk => (abs_nonneg _).trans (h2 k b hk hb))).trans
      (scaleErr_mono ?_ ?_)
    · unfold derivErr
      rw [show (6 * (d.ph * η) + 48 * R.eps * (∑ k ∈ Finset.range d.ph, if min k (d.ch - 1) = j then
          (if k + 1 = d.ph then |β (d.ph - 1) b| + |β d.ph b| else |β k b|) else 0) * M) / t
        = ∑ k ∈ Finset.range d.ph, (6 * η + 48 * R.eps * (if min k (d.ch - 1) = j then
          (if k + 1 = d.ph then |β (d.ph - 1) b| + |β d.ph b| else |β k b|) else 0) * M) / t by
        rw [← Finset.sum_div, Finset.sum_add_distrib, Finset.sum_const, Finset.card_range, nsmul_eq_mul, ← Finset.sum_mul,
          ← Finset.mul_sum]
        ring_nf]
      refine Finset.sum_le_sum fun k _ => ?_
      split_ifs
      · exact le_rfl
      · exact le_rfl
      · rw [mul_zero, zero_mul, add_zero]
        exact div_nonneg (by linarith) ht.le
    · refine Finset.sum_le_sum fun k _ => ?_
      split_ifs
      · exact abs_add_le _ _
      · exact le_rfl
      · exact le_rfl

/-! ### Objective -/

theorem ObjDiffR.accurate (he : R.eps ≤ 1 / 8) (hb : Bounded M X U e) (ht : 0 < t) (ht1 : t ≤ 1 / 16) {hx : Nat → K}
    (hx1 : ∀ a, 3 / 4 * t ≤ hx a) (hx2 : ∀ a, hx a ≤ 2 * t * M) (hu1 : ∀ b, 3 / 4 * t ≤ hu b) (hu2 : ∀ b, hu b ≤ 2 * t * M)
    {φ : Traj (d.ph + 1) d.nx K → Traj (d.ph + 1) d.nu K → K → K} {hs : K} {gx gu : Nat → Nat → K} {ge : K} (hph : 0 < d.ph)
    (hd : ObjDiffR R d φ X U e hx hu hs (driftX R X fun _ a => hx a) (driftU R U fun _ b => hu b) gx gu ge)
    (hφ : NearlyAffine φ c0 α β γ X U e ((2 * t + 7 * R.eps) * M) η) :
    (∀ k a, k < d.ph → a < d.nx → |gx k a - α (k + 1) a| ≤ derivErr R t η (totalCoeff d α β γ) M) ∧
    (∀ k b, k < d.ph → b < d.nu → |gu k b - (if k + 1 = d.ph then β (d.ph - 1) b + β d.ph b else β k b)|
      ≤ derivErr R t η (totalCoeff d α β γ) M) ∧
    (t * t / 2 ≤ hs → hs ≤ 2 * t * M → |ge - γ| ≤ derivErr R (t * t) η |γ| M) := by
  have h0 := R.eps_nonneg
  have hM := hb.one
  have hM0 : 0 ≤ R.eps * M := mul_nonneg h0 (by linarith)
  have hη := hφ.nonneg (radius_nonneg ht hM)
  have px : ∀ a, 0 < hx a := fun a => lt_of_lt_of_le (by linarith) (hx1 a)
  have pu : ∀ b, 0 < hu b := fun b => lt_of_lt_of_le (by linarith) (hu1 b)
  have dX := hb.driftX (R := R) he ht1 (hx := fun _ a => hx a) (fun _ a => hx2 a)
  have dU := hb.driftU (R := R) he ht1 (hu := fun _ b => hu b) (fun _ b => hu2 b)
  have tM : 0 ≤ t * M := mul_nonneg ht.le (by linarith)
  have rad : 2 * t * M + 27 / 4 * R.eps * M ≤ (2 * t + 7 * R.eps) * M := by linarith
  have refl : ∀ {q : Nat} {ρ : K} (Y : Traj (d.ph + 1) q K), 0 ≤ ρ → Near (fun _ _ => ρ) Y Y := fun Y h k a => by
    rw [sub_self, abs_zero]; exact h
  have hR := radius_nonneg (R := R) ht hM
  have hXn : Near (fun _ _ => 27 / 4 * R.eps * M) X (restoredF R.rnd X fun _ a => hx a) := (restoredF_near he fun _ a => px a).mono dX
  have hX' : Near (fun _ _ => (2 * t + 7 * R.eps) * M) X (restoredF R.rnd X fun _ a => hx a) :=
    hXn.mono fun k a => by linarith
  have e0 : |e - e| ≤ (2 * t + 7 * R.eps) * M := by rw [sub_self, abs_zero]; exact hR
  have hh : ∀ {h : K}, 0 < h → h ≤ 2 * t * M → |h| ≤ 2 * t * M := fun h1 h2 => by rw [abs_of_pos h1]; exact h2
  -- magnitudes
  have sa : 0 ≤ ∑ k ∈ Finset.range (d.ph + 1), ∑ a ∈ Finset.range d.nx, |α k a| :=
    Finset.sum_nonneg fun _ _ => Finset.sum_nonneg fun _ _ => abs_nonneg _
  have sb : 0 ≤ ∑ k ∈ Finset.range (d.ph + 1), ∑ b ∈ Finset.range d.nu, |β k b| :=
    Finset.sum_nonneg fun _ _ => Finset.sum_nonneg fun _ _ => abs_nonneg _
  have hL : (∑ k ∈ Finset.range (d.ph + 1), ∑ a ∈ Finset.range d.nx, |α k a|
      + ∑ k ∈ Finset.range (d.ph + 1), ∑ b ∈ Finset.range d.nu, |β k b|) * (27 / 4 * R.eps * M)
      ≤ 16 * R.eps * totalCoeff d α β γ * M := by
    have : totalCoeff d α β γ = ∑ k ∈ Finset.range (d.ph + 1), ∑ a ∈ Finset.range d.nx, |α k a|
      + ∑ k ∈ Finset.range (d.ph + 1), ∑ b ∈ Finset.range d.nu, |β k b| + |γ| := rfl
    have h1 : ∑ k ∈ Finset.range (d.ph + 1), ∑ a ∈ Finset.range d.nx, |α k a|
      + ∑ k ∈ Finset.range (d.ph + 1), ∑ b ∈ Finset.range d.nu, |β k b| ≤ totalCoeff d α β γ := by
      rw [this]; linarith [abs_nonneg γ]
    have h2 : 0 ≤ totalCoeff d α β γ := by linarith
    have h3 := mul_le_mul_of_nonneg_right h1 (show 0 ≤ 27 / 4 * R.eps * M by linarith)
    have h4 := mul_nonneg h2 hM0
    linarith
  have eu : ∀ k b, k ≤ d.ph → b < d.nu → |β k b| ≤ ∑ b ∈ Finset.range d.nu, |β k b| := fun k b _ hb' =>
    Finset.single_le_sum (f := fun b => |β k b|) (fun _ _ => abs_nonneg _) (Finset.mem_range.2 hb')
  have eu1 : ∀ k b, k ≤ d.ph → b < d.nu → |β k b| ≤ totalCoeff d α β γ := fun k b hk hb' => by
    have h1 := Finset.single_le_sum (f := fun k => ∑ b ∈ Finset.range d.nu, |β k b|)
      (fun _ _ => Finset.sum_nonneg fun _ _ => abs_nonneg _) (Finset.mem_range.2 (show k < d.ph + 1 by omega))
    have h2 := eu k b hk hb'
    unfold totalCoeff
    linarith [abs_nonneg γ]
  have eu2 : ∀ b, b < d.nu → |β (d.ph - 1) b| + |β d.ph b| ≤ totalCoeff d α β γ := fun b hb' => by
    obtain ⟨p, hp⟩ : ∃ p, d.ph = p + 1 := ⟨d.ph - 1, by omega⟩
    have h1 := eu (d.ph - 1) b (by omega) hb'
    have h2 := eu d.ph b (by omega) hb'
    have h3 : ∑ b ∈ Finset.range d.nu, |β (d.ph - 1) b| + ∑ b ∈ Finset.range d.nu, |β d.ph b|
        ≤ ∑ k ∈ Finset.range (d.ph + 1), ∑ b ∈ Finset.range d.nu, |β k b| := by
      rw [hp, Finset.sum_range_succ, Finset.sum_range_succ, Nat.add_sub_cancel]
      have : 0 ≤ ∑ k ∈ Finset.range p, ∑ b ∈ Finset.range d.nu, |β k b| :=
        Finset.sum_nonneg fun _ _ => Finset.sum_nonneg fun _ _ => abs_nonneg _
      linarith
    unfold totalCoeff
    linarith [abs_nonneg γ]
  have ea : ∀ k a, k ≤ d.ph → a < d.nx → |α k a| ≤ totalCoeff d α β γ := fun k a hk ha => by
    have h1 := Finset.single_le_sum (f := fun k => ∑ a ∈ Finset.range d.nx, |α k a|)
      (fun _ _ => Finset.sum_nonneg fun _ _ => abs_nonneg _) (Finset.mem_range.2 (show k < d.ph + 1 by omega))
    have h2 := Finset.single_le_sum (f := fun a => |α k a|) (fun _ _ => abs_nonneg _) (Finset.mem_range.2 ha)
    unfold totalCoeff
    linarith [abs_nonneg γ]
  refine ⟨?_, ?_, ?_⟩
  · intro k a hk ha
    obtain ⟨X', h1, h4⟩ := hd.states k a hk ha
    rw [h4]
    refine quot_err he ht (by linarith) (by linarith [hx1 a]) hM (ea (k + 1) a (by omega) ha) hη ?_
    refine values_err (hφ _ _ _ ((near_of_bump h1 dX (hh (px a) (hx2 a))).mono fun _ _ => rad) (refl U hR) e0)
      (hφ _ _ _ (refl X hR) (refl U hR) e0) ?_
    have h5 := affine_near (c0 := c0) (α := α) (β := β) (γ := γ) (e := e) (h1.mono dX) (refl U (show 0 ≤ 27 / 4 * R.eps * M by linarith))
    rw [affine_is.bumpX X U e (by omega) ha] at h5
    rw [show affine c0 α β γ X' U e - affine c0 α β γ X U e - hx a * α (k + 1) a
      = affine c0 α β γ X' U e - (affine c0 α β γ X U e + α (k + 1) a * hx a) by ring]
    exact h5.trans hL
  · intro k b hk hb'
    by_cases hl : k + 1 = d.ph
    · rw [if_pos hl]
      obtain rfl : k = d.ph - 1 := by omega
      obtain ⟨U', h1, h4⟩ := hd.last b hb'
      rw [h4]
      refine quot_err he ht (by linarith) (by linarith [hu1 b]) hM ((abs_add_le _ _).trans (eu2 b hb')) hη ?_
      refine values_err (hφ _ _ _ hX' ((near_of_bump2 (by omega) h1 dU (hh (pu b) (hu2 b))).mono fun _ _ => rad) e0)
        (hφ _ _ _ (refl X hR) (refl U hR) e0) ?_
      have h5 := affine_near (c0 := c0) (α := α) (β := β) (γ := γ) (e := e) hXn (h1.mono dU)
      rw [affine_is.bumpU X _ e (by omega) hb', affine_is.bumpU X U e (by omega) hb'] at h5
      refine (le_of_eq ?_).trans (h5.trans hL)
      congr 1; ring
    · rw [if_neg hl]
      obtain ⟨U', h1, h4⟩ := hd.inputs k b (by omega) hb'
      rw [h4]
      refine quot_err he ht (by linarith) (by linarith [hu1 b]) hM (eu1 k b (by omega) hb') hη ?_
      refine values_err (hφ _ _ _ hX' ((near_of_bump h1 dU (hh (pu b) (hu2 b))).mono fun _ _ => rad) e0)
        (hφ _ _ _ (refl X hR) (refl U hR) e0) ?_
      have h5 := affine_near (c0 := c0) (α := α) (β := β) (γ := γ) (e := e) hXn (h1.mono dU)
      rw [affine_is.bumpU X U e (by omega) hb'] at h5
      refine (le_of_eq ?_).trans (h5.trans hL)
      congr 1; ring
  · intro hs1 hs2
    obtain ⟨U', h1, h4⟩ := hd.slack
    rw [h4]
    exact slack_err he hb ht ht1 hs1 hs2 φ hφ hX' (h1.mono fun k a => (dU k a).trans (by linarith))

/-- the gradient of the objective -/
theorem ObjAccurate.of (hch : 0 < d.ch) (hle : d.ch ≤ d.ph) {sx su : Nat → K} {gx gu : Nat → Nat → K} {ge : K} {g : Nat → K}
    (hr : RowOfR R.rnd d false sx su gx gu ge g)
    (h1 : ∀ k a, k < d.ph → a < d.nx → |gx k a - α (k + 1) a| ≤ derivErr R t η (totalCoeff d α β γ) M)
    (h2 : ∀ k b, k < d.ph → b < d.nu → |gu k b - (if k + 1 = d.ph then β (d.ph - 1) b + β d.ph b else β k b)|
      ≤ derivErr R t η (totalCoeff d α β γ) M)
    (h3 : |ge - γ| ≤ derivErr R (t * t) η |γ| M) : ObjAccurate R d t M η su α β γ g := by
  refine ⟨fun k a hk ha => ?_, fun j b hj hb => ?_, by rw [hr.slack]; exact h3⟩
  · rw [hr.states k a hk ha]
    exact h1 k a hk ha
  · rw [hr.inputs j b hj hb, blockSum_eq hch hle, blockSum_eq hch hle]
    have hn : 0 ≤ derivErr R t η (totalCoeff d α β γ) M := (abs_nonneg _).trans (h2 (d.ph - 1) b (by omega) hb)
    refine (block_err hch hle (fun k hk => h2 k b hk hb) (fun k hk => hn)).trans (scaleErr_mono ?_ ?_)
    · calc _ ≤ ∑ k ∈ Finset.range d.ph, derivErr R t η (totalCoeff d α β γ) M := Finset.sum_le_sum fun k _ => by
            split_ifs
            · exact le_rfl
            · exact hn
        _ = _ := by rw [Finset.sum_const, Finset.card_range, nsmul_eq_mul]
    · refine Finset.sum_le_sum fun k _ => ?_
      split_ifs
      · exact abs_add_le _ _
      · exact le_rfl
      · exact le_rfl

end Mpc.NlSpec
