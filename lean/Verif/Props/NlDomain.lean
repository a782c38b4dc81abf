import Verif.Spec.NlDomain
import Verif.Props.NlDoubles
import Verif.Props.NlStarting

/-
C127: user functions which are defined on a part of the trajectories only (logarithms, square roots, quotients), kept there by limits.
-/
namespace Mpc.Props
open Mpc Exec NlSpec
open Mpc.Spec (within)
set_option linter.unusedSectionVars false

section
variable {d : Dims} {K : Type} [Field K] [LinearOrder K] [IsStrictOrderedRing K]

theorem stepOf_le {t v M : K} (ht : 0 ≤ t) (hM : 1 ≤ M) (hv : |v| ≤ M) : stepOf t v ≤ t * M := by
  unfold stepOf
  split_ifs
  · exact mul_le_mul_of_nonneg_left hM ht
  · exact mul_le_mul_of_nonneg_left hv ht

theorem entry_le {r c : Nat} {X : Traj r c K} {M : K} (h0 : 0 ≤ M) (h : ∀ k a, |X k a| ≤ M) (i j : Nat) : |entry X i j| ≤ M := by
  unfold entry
  split_ifs
  · exact h _ _
  · rw [abs_zero]; exact h0

theorem bump_near {r c : Nat} {X : Traj r c K} {δ t : K} (i j : Nat) (h0 : 0 ≤ δ) (ht : |t| ≤ δ) (k : Fin r) (a : Fin c) :
    |bump X i j t k a - X k a| ≤ δ := by
  unfold bump
  split_ifs
  · rw [add_sub_cancel_left]; exact ht
  · rw [sub_self, abs_zero]; exact h0

theorem bump2_near {r c : Nat} {X : Traj r c K} {δ t : K} {i i' : Nat} (j : Nat) (hi : i ≠ i') (h0 : 0 ≤ δ) (ht : |t| ≤ δ) (k : Fin r)
    (a : Fin c) : |bump (bump X i j t) i' j t k a - X k a| ≤ δ := by
  by_cases h : (k : Nat) = i' ∧ (a : Nat) = j
  · have e : bump (bump X i j t) i' j t k a = X k a + t := by
      unfold bump
      rw [if_pos h, if_neg (fun h' => hi (h'.1.symm.trans h.1))]
    rw [e, add_sub_cancel_left]; exact ht
  · have e : bump (bump X i j t) i' j t k a = bump X i j t k a := if_neg h
    rw [e]; exact bump_near i j h0 ht k a

variable {dyn : Bool} {ops : List (NlCall d K)} {outs : List (NlOut K)} {m : NlMpc d K} {x0 : Vec K}
  {cs : List (NlCallback K)} {s : NlState d K}

/-- C127: if the user functions return numbers on all trajectories which differ from the current one by at most a millionth (of the
largest entry, or of one) in each entry and not at all in the measured state, everything the solver reads is a number. -/
theorem c127_near_partial (h : InSolver d dyn ops outs m x0 cs s) (hsc : ∀ a, stScale ops a ≠ 0) (F : DoubleFns d K) (z : Vec K)
    (hz : z.size = d.nZ) {M : K} (hM : 1 ≤ M) (hX : ∀ k a, |statesOf ops x0 z k a| ≤ M) (hU : ∀ k b, |inputsOf ops z k b| ≤ M)
    (he : |z.get (slackIx d)| ≤ M)
    (hF : DefinedOn F (last samplingOf ops).isSome
      (Beside (M / 1000000) (statesOf ops x0 z) (inputsOf ops z) (z.get (slackIx d)))) :
    AllNumbers s F z := by
  have hM0 : 0 ≤ M := le_trans zero_le_one hM
  have hδ : 0 ≤ M / 1000000 := div_nonneg hM0 (by norm_num)
  have s1 : ∀ v : K, |v| ≤ M → |stepOf (1 / 1000000) v| ≤ M / 1000000 := fun v hv => by
    rw [abs_of_pos (stepOf_pos (by norm_num) _)]
    refine (stepOf_le (by norm_num) hM hv).trans (le_of_eq ?_)
    ring
  have s2 : ∀ v : K, |v| ≤ M → |stepOf (1 / 67108864) v| ≤ M / 1000000 := fun v hv => by
    rw [abs_of_pos (stepOf_pos (by norm_num) _)]
    refine (stepOf_le (by norm_num) hM hv).trans ?_
    rw [show M / 1000000 = 1 / 1000000 * M by ring]
    exact mul_le_mul_of_nonneg_right (by norm_num) hM0
  have s3 : ∀ t : K, 0 ≤ t → t ≤ 1 / 1000000 → abs (max t (abs (z.get (slackIx d))) * t) ≤ M / 1000000 := fun t h0 h1 => by
    have a1 : max t |z.get (slackIx d)| ≤ M := max_le (h1.trans (le_trans (by norm_num) hM)) he
    have a2 : 0 ≤ max t |z.get (slackIx d)| := le_max_of_le_left h0
    rw [abs_of_nonneg (mul_nonneg a2 h0), div_eq_mul_one_div M]
    exact mul_le_mul a1 h1 h0 hM0
  have lX : ∀ j, |linear (statesOf ops x0 z) j| ≤ M := fun j => entry_le hM0 hX _ _
  have lU : ∀ j, |linear (inputsOf ops z) j| ≤ M := fun j => entry_le hM0 hU _ _
  have eX : ∀ i j, |entry (statesOf ops x0 z) i j| ≤ M := fun i j => entry_le hM0 hX _ _
  have eU : ∀ i j, |entry (inputsOf ops z) i j| ≤ M := fun i j => entry_le hM0 hU _ _
  have nn : ∀ {t : K}, |t| ≤ M / 1000000 → |-t| ≤ M / 1000000 := fun ht => by rw [abs_neg]; exact ht
  -- the points looked at
  have b0 : Beside (M / 1000000) (statesOf ops x0 z) (inputsOf ops z) (z.get (slackIx d)) (statesOf ops x0 z) (inputsOf ops z)
      (z.get (slackIx d)) :=
    ⟨rfl, fun k a => by rw [sub_self, abs_zero]; exact hδ, fun k a => by rw [sub_self, abs_zero]; exact hδ,
      by rw [sub_self, abs_zero]; exact hδ⟩
  have bx : ∀ (k a : Nat) (t : K), |t| ≤ M / 1000000 →
      Beside (M / 1000000) (statesOf ops x0 z) (inputsOf ops z) (z.get (slackIx d)) (bump (statesOf ops x0 z) (k + 1) a t)
        (inputsOf ops z) (z.get (slackIx d)) := fun k a t ht =>
    ⟨by
      funext a'
      show bump _ _ _ _ _ _ = _
      unfold bump
      exact if_neg (fun h' => absurd h'.1 (by simp)), bump_near _ _ hδ ht, b0.inputs, b0.slack⟩
  have bu : ∀ (k a : Nat) (t : K), |t| ≤ M / 1000000 →
      Beside (M / 1000000) (statesOf ops x0 z) (inputsOf ops z) (z.get (slackIx d)) (statesOf ops x0 z)
        (bump (inputsOf ops z) k a t) (z.get (slackIx d)) := fun k a t ht =>
    ⟨rfl, b0.states, bump_near _ _ hδ ht, b0.slack⟩
  have hph : 0 < d.ph := by have := h.hor.ch_pos; have := h.hor.ch_le; omega
  have bu2 : ∀ (a : Nat) (t : K), |t| ≤ M / 1000000 →
      Beside (M / 1000000) (statesOf ops x0 z) (inputsOf ops z) (z.get (slackIx d)) (statesOf ops x0 z)
        (bump (bump (inputsOf ops z) (d.ph - 1) a t) d.ph a t) (z.get (slackIx d)) := fun a t ht =>
    ⟨rfl, b0.states, bump2_near _ (by omega) hδ ht, b0.slack⟩
  have be : ∀ t : K, |t| ≤ M / 1000000 →
      Beside (M / 1000000) (statesOf ops x0 z) (inputsOf ops z) (z.get (slackIx d)) (statesOf ops x0 z) (inputsOf ops z)
        (z.get (slackIx d) + t) := fun t ht =>
    ⟨rfl, b0.states, b0.inputs, by rw [add_sub_cancel_left]; exact ht⟩
  refine ⟨?_, ?_, ?_, ?_⟩
  · obtain ⟨v, g, gx, gu, ge, hr, -, hv, hD, hR⟩ := c126_objective_partial h F z hz
    have kx : ∀ k a, k < d.ph → a < d.nx → IsNumber (gx k a) := fun k a hk ha =>
      (quotient_number (hD.states k a hk ha)).2 ⟨hF.obj _ _ _ (bx _ _ _ (s1 _ (lX _))), hF.obj _ _ _ b0⟩
    have ku : ∀ k b, k < d.ph → b < d.nu → IsNumber (gu k b) := fun k b hk hb => by
      by_cases hl : k + 1 < d.ph
      · exact (quotient_number (hD.inputs k b hl hb)).2 ⟨hF.obj _ _ _ (bu _ _ _ (s1 _ (lU _))), hF.obj _ _ _ b0⟩
      · obtain rfl : k = d.ph - 1 := by omega
        exact (quotient_number (hD.last b hb)).2 ⟨hF.obj _ _ _ (bu2 _ _ (s1 _ (lU _))), hF.obj _ _ _ b0⟩
    refine ⟨v, g, hr, by rw [hv]; exact hF.obj _ _ _ b0, ?_⟩
    intro l hl
    rcases nZ_cases d hl with ⟨k, a, hk, ha, rfl⟩ | ⟨j, b, hj, hb, rfl⟩ | rfl
    · exact (from_number (hR.states k a hk ha)).2 fun _ => kx k a hk ha
    · exact (from_number (hR.inputs j ⟨b, hb⟩ hj)).2 fun i => ku _ _ i.1.2 i.2.2
    · rw [hR.slack]
      refine (quotient_number hD.slack).2 ⟨hF.obj _ _ _ (be _ (s3 _ (by norm_num) (by norm_num))), ?_⟩
      rw [sub_eq_add_neg]
      exact hF.obj _ _ _ (be _ (nn (s3 _ (by norm_num) (by norm_num))))
  · intro junk
    obtain ⟨r, gx, gu, ge, hr, -, -, hv, hD, -, hS, hR⟩ := c126_inequality_partial h F z hz junk
    refine ⟨r, hr, fun c => ⟨by rw [hv c]; exact hF.ineq _ _ _ b0 _, ?_⟩⟩
    intro l hl
    rcases nZ_cases d hl with ⟨k, a, hk, ha, rfl⟩ | ⟨j, b, hj, hb, rfl⟩ | rfl
    · exact (from_number ((hR c).states k a hk ha)).2 fun _ => (quotient_number (hD.states c k a hk ha)).2
        ⟨hF.ineq _ _ _ (bx _ _ _ (s2 _ (lX _))) _, hF.ineq _ _ _ (bx _ _ _ (nn (s2 _ (lX _)))) _⟩
    · refine (from_number ((hR c).inputs j ⟨b, hb⟩ hj)).2 ?_
      rintro ⟨k, b'⟩
      by_cases hk : (k : Nat) + 1 < d.ph
      · exact (quotient_number (hD.inputs c k b' hk b'.2)).2
          ⟨hF.ineq _ _ _ (bu _ _ _ (s2 _ (lU _))) _, hF.ineq _ _ _ (bu _ _ _ (nn (s2 _ (lU _)))) _⟩
      · have e : (k : Nat) = d.ph - 1 := by omega
        have := hD.lastInput c b' b'.2
        simp only [Bool.false_eq_true, if_false] at this
        dsimp only
        rw [e]
        exact (quotient_number this).2
          ⟨hF.ineq _ _ _ (bu _ _ _ (s2 _ (lU _))) _, hF.ineq _ _ _ (bu _ _ _ (nn (s2 _ (lU _)))) _⟩
    · have := (hR c).slack
      rw [this]
      refine (quotient_number (hS c)).2 ⟨hF.ineq _ _ _ (be _ (s3 _ (by norm_num) (by norm_num))) _, ?_⟩
      rw [sub_eq_add_neg]
      exact hF.ineq _ _ _ (be _ (nn (s3 _ (by norm_num) (by norm_num)))) _
  · intro junk
    obtain ⟨r, gx, gu, hr, -, -, hv, hD, hR⟩ := c126_equality_partial h F z hz junk
    refine ⟨r, hr, fun c => ⟨by rw [hv c]; exact hF.eq _ _ _ b0 _, ?_⟩⟩
    intro l hl
    rcases nZ_cases d hl with ⟨k, a, hk, ha, rfl⟩ | ⟨j, b, hj, hb, rfl⟩ | rfl
    · exact (from_number ((hR c).states k a hk ha)).2 fun _ => (quotient_number (hD.states c k a hk ha)).2
        ⟨hF.eq _ _ _ (bx _ _ _ (s2 _ (eX _ _))) _, hF.eq _ _ _ (bx _ _ _ (nn (s2 _ (eX _ _)))) _⟩
    · refine (from_number ((hR c).inputs j ⟨b, hb⟩ hj)).2 ?_
      rintro ⟨k, b'⟩
      by_cases hk : (k : Nat) + 1 < d.ph
      · exact (quotient_number (hD.inputs c k b' hk b'.2)).2
          ⟨hF.eq _ _ _ (bu _ _ _ (s2 _ (eU _ _))) _, hF.eq _ _ _ (bu _ _ _ (nn (s2 _ (eU _ _)))) _⟩
      · have e : (k : Nat) = d.ph - 1 := by omega
        have := hD.lastInput c b' b'.2
        simp only [if_true] at this
        dsimp only
        rw [e]
        exact (quotient_number this).2
          ⟨hF.eq _ _ _ (bu2 _ _ (s2 _ (eU _ _))) _, hF.eq _ _ _ (bu2 _ _ (nn (s2 _ (eU _ _)))) _⟩
    · have := (hR c).slack
      rw [this]
      exact ⟨0, rfl⟩
  · intro junk
    -- a moved component of the state before or after step `k`, of the input of step `k`
    have row : ∀ (k : Fin (d.ph + 1)) (a : Fin d.nx) (t : K),
        bump (statesOf ops x0 z) k a t k = bumpV (statesOf ops x0 z k) a t := fun k a t => by
      funext a'
      unfold bump bumpV
      simp
    have rowU : ∀ (k : Fin (d.ph + 1)) (b : Fin d.nu) (t : K),
        bump (inputsOf ops z) k b t k = bumpV (inputsOf ops z k) b t := fun k a t => by
      funext a'
      unfold bump bumpV
      simp
    have px : ∀ (k : Fin d.ph) (a i : Fin d.nx) (t : K), 0 < (k : Nat) → |t| ≤ M / 1000000 →
        IsNumber (F.state (bumpV (statesOf ops x0 z k.castSucc) a t) (inputsOf ops z k.castSucc) k i) := fun k a i t hk ht => by
      rw [← row]
      have := hF.state _ _ _ (bx (k - 1) a t ht) k i
      have e : (k : Nat) - 1 + 1 = (k.castSucc : Fin (d.ph + 1)) := by simp; omega
      rw [e] at this
      exact this
    have px' : ∀ (k : Fin d.ph) (a i : Fin d.nx) (t : K), (last samplingOf ops).isSome = true → |t| ≤ M / 1000000 →
        IsNumber (F.state (bumpV (statesOf ops x0 z k.succ) a t) (inputsOf ops z k.castSucc) k i) := fun k a i t hc ht => by
      rw [← row]
      exact hF.stateEnd hc _ _ _ (bx k a t ht) k i
    have pu : ∀ (k : Fin d.ph) (b : Fin d.nu) (i : Fin d.nx) (t : K), |t| ≤ M / 1000000 →
        IsNumber (F.state (statesOf ops x0 z k.castSucc) (bumpV (inputsOf ops z k.castSucc) b t) k i) := fun k b i t ht => by
      rw [← rowU]
      exact hF.state _ _ _ (bu k b t ht) k i
    have pu' : ∀ (k : Fin d.ph) (b : Fin d.nu) (i : Fin d.nx) (t : K), (last samplingOf ops).isSome = true → |t| ≤ M / 1000000 →
        IsNumber (F.state (statesOf ops x0 z k.succ) (bumpV (inputsOf ops z k.castSucc) b t) k i) := fun k b i t hc ht => by
      rw [← rowU]
      exact hF.stateEnd hc _ _ _ (bu k b t ht) k i
    cases hd : last samplingOf ops with
    | none =>
      obtain ⟨r, qx, qu, hr, -, -, h1, h2⟩ := c126_discrete_partial h hd hsc F z hz junk
      refine ⟨r, hr, fun k i => ⟨(from_number (h2 k i).1).2 fun _ => hF.state _ _ _ b0 k i, ?_⟩⟩
      intro l hl
      have hR := (h2 k i).2
      rcases nZ_cases d hl with ⟨k', a, hk', ha, rfl⟩ | ⟨j, b, hj, hb, rfl⟩ | rfl
      · by_cases e1 : k' = k
        · subst e1; exact ⟨_, hR.next ⟨a, ha⟩⟩
        · by_cases e2 : k' + 1 = k
          · refine (from_number (hR.prev k' ⟨a, ha⟩ e2)).2 fun t => (quotient_number ((h1 k).states t.1 t.2)).2 ⟨?_, ?_⟩
            · exact px k _ _ _ (by omega) (s2 _ (hX _ _))
            · exact px k _ _ _ (by omega) (nn (s2 _ (hX _ _)))
          · exact ⟨_, hR.other k' ⟨a, ha⟩ hk' e1 e2⟩
      · refine (from_number (hR.inputs j ⟨b, hb⟩ hj)).2 fun t => (quotient_number ((h1 k).inputs t.1 t.2)).2 ⟨?_, ?_⟩
        · exact pu k _ _ _ (s2 _ (hU _ _))
        · exact pu k _ _ _ (nn (s2 _ (hU _ _)))
      · exact ⟨_, hR.slack⟩
    | some Ts =>
      have hc : (last samplingOf ops).isSome = true := by rw [hd]; rfl
      obtain ⟨r, qx, qx', qu, qu', hr, -, -, h1, h1', h2⟩ := c126_continuous_partial h hd hsc F z hz junk
      refine ⟨r, hr, fun k i => ⟨(from_number (h2 k i).1).2 fun t => ?_, ?_⟩⟩
      · split_ifs
        · exact hF.state _ _ _ b0 k i
        · exact hF.stateEnd hc _ _ _ b0 k i
      intro l hl
      have hR := (h2 k i).2
      rcases nZ_cases d hl with ⟨k', a, hk', ha, rfl⟩ | ⟨j, b, hj, hb, rfl⟩ | rfl
      · by_cases e1 : k' = k
        · subst e1
          exact (from_number (hR.next ⟨a, ha⟩)).2 fun t => (quotient_number ((h1' k).states t.1 t.2)).2
            ⟨px' k _ _ _ hc (s2 _ (hX _ _)), px' k _ _ _ hc (nn (s2 _ (hX _ _)))⟩
        · by_cases e2 : k' + 1 = k
          · refine (from_number (hR.prev k' ⟨a, ha⟩ e2)).2 fun t => (quotient_number ((h1 k).states t.1 t.2)).2 ⟨?_, ?_⟩
            · exact px k _ _ _ (by omega) (s2 _ (hX _ _))
            · exact px k _ _ _ (by omega) (nn (s2 _ (hX _ _)))
          · exact ⟨_, hR.other k' ⟨a, ha⟩ hk' e1 e2⟩
      · refine (from_number (hR.inputs j ⟨b, hb⟩ hj)).2 fun t => ?_
        split_ifs
        · exact (quotient_number ((h1 k).inputs t.2.1 t.2.2)).2 ⟨pu k _ _ _ (s2 _ (hU _ _)), pu k _ _ _ (nn (s2 _ (hU _ _)))⟩
        · exact (quotient_number ((h1' k).inputs t.2.1 t.2.2)).2
            ⟨pu' k _ _ _ hc (s2 _ (hU _ _)), pu' k _ _ _ hc (nn (s2 _ (hU _ _)))⟩
      · exact ⟨_, hR.slack⟩

theorem statesOf_zero (z : Vec K) (a : Fin d.nx) : statesOf ops x0 z 0 a = stScale ops a * x0.get a := by
  unfold statesOf codeStates
  simp

theorem statesOf_succ (z : Vec K) (k : Fin d.ph) (a : Fin d.nx) :
    statesOf ops x0 z k.succ a = stScale ops a * z.get (stateIx d k a) := by
  unfold statesOf codeStates
  simp

/-- no scaling: states and inputs are the decision variables -/
theorem inside_within (hi : ∀ b, inScale ops b = 1) (hsx : ∀ a, stScale ops a = 1) {z : Vec K} (hch : 0 < d.ch)
    (hz : InsideLimits d ops outs z) : WithinBy 0 ops outs (fun a => x0.get a) (statesOf ops x0 z) (inputsOf ops z) := by
  refine ⟨?_, ?_, ?_⟩
  · funext a
    rw [statesOf_zero]
    rw [hsx, one_mul]
  · intro k a
    refine ⟨_, hz.1 k a k.2 a.2, ?_⟩
    have : statesOf ops x0 z k.succ a = z.get (stateIx d k a) := by
      rw [statesOf_succ, hsx, one_mul]
    rw [this, sub_self, abs_zero]
  · intro k b
    refine ⟨_, hz.2.1 (min k (d.ch - 1)) b (by omega) b.2, ?_⟩
    have : inputsOf ops z k b = z.get (inputIx d (min k (d.ch - 1)) b) := by
      show inScale ops b * _ = _
      rw [hi, one_mul]
    rw [this, sub_self, abs_zero]

theorem beside_within {δ : K} {X X' : Traj (d.ph + 1) d.nx K} {U U' : Traj (d.ph + 1) d.nu K} {e e' : K} {x : FVec d.nx K}
    (h : WithinBy 0 ops outs x X U) (hb : Beside δ X U e X' U' e') : WithinBy δ ops outs x X' U' := by
  refine ⟨hb.measured.trans h.measured, fun k a => ?_, fun k b => ?_⟩
  · obtain ⟨w, h1, h2⟩ := h.states k a
    have : X k.succ a = w := sub_eq_zero.1 (abs_eq_zero.1 (le_antisymm h2 (abs_nonneg _)))
    exact ⟨w, h1, this ▸ hb.states _ _⟩
  · obtain ⟨w, h1, h2⟩ := h.inputs k b
    have : U k b = w := sub_eq_zero.1 (abs_eq_zero.1 (le_antisymm h2 (abs_nonneg _)))
    exact ⟨w, h1, this ▸ hb.inputs _ _⟩

/-- C127 with limits: without scaling, if the user functions return numbers for all states and inputs within the limits widened by a
millionth (of the largest entry, or of one), and slacks up to a millionth, everything the solver reads at a point within the limits
is a number. Missing: it is not enough that they do within the limits (see `c127_limits_violated`, `c127_slack_violated`). -/
theorem c127_limits_partial (h : InSolver d dyn ops outs m x0 cs s) (hi : ∀ b, inScale ops b = 1) (hsx : ∀ a, stScale ops a = 1)
    (F : DoubleFns d K) (z : Vec K) (hz : z.size = d.nZ) (hl : InsideLimits d ops outs z)
    {M : K} (hM : 1 ≤ M) (hX : ∀ k a, |statesOf ops x0 z k a| ≤ M) (hU : ∀ k b, |inputsOf ops z k b| ≤ M)
    (hF : DefinedOn F (last samplingOf ops).isSome
      (fun X U e => WithinBy (M / 1000000) ops outs (fun a => x0.get a) X U ∧ |e| ≤ M / 1000000)) :
    AllNumbers s F z := by
  refine c127_near_partial h (fun a => by rw [hsx]; exact one_ne_zero) F z hz hM hX hU ?_ ?_
  · rw [hl.2.2, abs_zero]; exact le_trans zero_le_one hM
  · have key : ∀ X' U' e', Beside (M / 1000000) (statesOf ops x0 z) (inputsOf ops z) (z.get (slackIx d)) X' U' e' →
        WithinBy (M / 1000000) ops outs (fun a => x0.get a) X' U' ∧ |e'| ≤ M / 1000000 := fun X' U' e' hb => by
      refine ⟨beside_within (inside_within hi hsx h.hor.ch_pos hl) hb, ?_⟩
      have := hb.slack
      rwa [hl.2.2, sub_zero] at this
    exact ⟨fun X U e hb => hF.obj _ _ _ (key _ _ _ hb), fun X U e hb => hF.ineq _ _ _ (key _ _ _ hb),
      fun X U e hb => hF.eq _ _ _ (key _ _ _ hb), fun X U e hb => hF.state _ _ _ (key _ _ _ hb),
      fun hc X U e hb => hF.stateEnd hc _ _ _ (key _ _ _ hb)⟩

/-- C127 away from the limits: it is enough that the functions return numbers within the limits (and for small slacks of either sign)
if the point keeps a distance of a millionth from them. -/
theorem c127_margin_partial (h : InSolver d dyn ops outs m x0 cs s) (hi : ∀ b, inScale ops b = 1) (hsx : ∀ a, stScale ops a = 1)
    (F : DoubleFns d K) (z : Vec K) (hz : z.size = d.nZ) {M : K} (hM : 1 ≤ M)
    (hl : ∀ w : Vec K, w.size = d.nZ → (∀ p, p < d.nZ → |w.get p - z.get p| ≤ M / 1000000) → w.get (slackIx d) = 0 →
      InsideLimits d ops outs w)
    (h0 : z.get (slackIx d) = 0) (hX : ∀ k a, |statesOf ops x0 z k a| ≤ M) (hU : ∀ k b, |inputsOf ops z k b| ≤ M)
    (hF : DefinedOn F (last samplingOf ops).isSome
      (fun X U e => WithinBy 0 ops outs (fun a => x0.get a) X U ∧ |e| ≤ M / 1000000)) :
    AllNumbers s F z := by
  have hδ : 0 ≤ M / 1000000 := div_nonneg (le_trans zero_le_one hM) (by norm_num)
  have hlt : ∀ k a, k < d.ph → a < d.nx → stateIx d k a < d.nZ := fun k a hk ha => stateIx_lt hk ha
  -- one entry of `z` moved
  have mv : ∀ p t, p < d.nZ → p ≠ slackIx d → |t| ≤ M / 1000000 →
      InsideLimits d ops outs ⟨d.nZ, fun q => if q = p then z.get q + t else z.get q⟩ := fun p t hp hne ht => by
    refine hl _ rfl (fun q _ => ?_) ?_
    · show abs ((if q = p then z.get q + t else z.get q) - z.get q) ≤ _
      split_ifs
      · rw [add_sub_cancel_left]; exact ht
      · rw [sub_self, abs_zero]; exact hδ
    · show (if slackIx d = p then _ else z.get (slackIx d)) = 0
      rw [if_neg (Ne.symm hne), h0]
  refine c127_near_partial h (fun a => by rw [hsx]; exact one_ne_zero) F z hz hM hX hU ?_ ?_
  · rw [h0, abs_zero]; exact le_trans zero_le_one hM
  · have key : ∀ X' U' e', Beside (M / 1000000) (statesOf ops x0 z) (inputsOf ops z) (z.get (slackIx d)) X' U' e' →
        WithinBy 0 ops outs (fun a => x0.get a) X' U' ∧ |e'| ≤ M / 1000000 := fun X' U' e' hb => by
      refine ⟨⟨?_, fun k a => ⟨X' k.succ a, ?_, by rw [sub_self, abs_zero]⟩, fun k b => ⟨U' k b, ?_, by rw [sub_self, abs_zero]⟩⟩, ?_⟩
      · refine hb.measured.trans ?_
        funext a
        rw [statesOf_zero]
        rw [hsx, one_mul]
      · have e1 : statesOf ops x0 z k.succ a = z.get (stateIx d k a) := by
          rw [statesOf_succ, hsx, one_mul]
        have hb1 := hb.states k.succ a
        rw [e1] at hb1
        have hp := hlt k a k.2 a.2
        have := (mv (stateIx d k a) (X' k.succ a - z.get (stateIx d k a)) hp
          (by
            have : stateIx d k a < d.ph * d.nx := block_lt a.2 k.2
            unfold slackIx
            omega) hb1).1 k a k.2 a.2
        simpa using this
      · have e1 : inputsOf ops z k b = z.get (inputIx d (min k (d.ch - 1)) b) := by
          show inScale ops b * _ = _
          rw [hi, one_mul]
        have hb1 := hb.inputs k b
        rw [e1] at hb1
        have hj : min (k : Nat) (d.ch - 1) < d.ch := by have := h.hor.ch_pos; omega
        have hp : inputIx d (min k (d.ch - 1)) b < d.nZ := inputIx_lt hj b.2
        have := (mv (inputIx d (min k (d.ch - 1)) b) (U' k b - z.get (inputIx d (min k (d.ch - 1)) b)) hp
          (by
            have : (min (k : Nat) (d.ch - 1)) * d.nu + b < d.ch * d.nu := block_lt b.2 hj
            have e : d.ch * d.nu = d.nu * d.ch := Nat.mul_comm _ _
            unfold slackIx inputIx
            omega) hb1).2.1 (min k (d.ch - 1)) b hj b.2
        simpa using this
      · have := hb.slack
        rwa [h0, sub_zero] at this
    exact ⟨fun X U e hb => hF.obj _ _ _ (key _ _ _ hb), fun X U e hb => hF.ineq _ _ _ (key _ _ _ hb),
      fun X U e hb => hF.eq _ _ _ (key _ _ _ hb), fun X U e hb => hF.state _ _ _ (key _ _ _ hb),
      fun hc X U e hb => hF.stateEnd hc _ _ _ (key _ _ _ hb)⟩

end

/-! ### what fails -/

/-- C127 in full: at a point within the limits, functions which return numbers within the limits (for any slack) give numbers. -/
def C127Claim (K : Type) [Field K] [LinearOrder K] [IsStrictOrderedRing K] : Prop :=
  ∀ (d : Dims) (dyn : Bool) (ops : List (NlCall d K)) (outs : List (NlOut K)) (m : NlMpc d K) (x0 : Vec K) (cs : List (NlCallback K))
    (s : NlState d K), InSolver d dyn ops outs m x0 cs s → (∀ b, inScale ops b = 1) → (∀ a, stScale ops a = 1) →
    ∀ (F : DoubleFns d K) (z : Vec K), z.size = d.nZ → InsideLimits d ops outs z →
      DefinedOn F (last samplingOf ops).isSome (fun X U _ => WithinBy 0 ops outs (fun a => x0.get a) X U) → AllNumbers s F z

/-- the same for the slack, which is never negative: functions which return numbers for all states, inputs and slacks `0 ≤ e` -/
def C127SlackClaim (K : Type) [Field K] [LinearOrder K] [IsStrictOrderedRing K] : Prop :=
  ∀ (d : Dims) (dyn : Bool) (ops : List (NlCall d K)) (outs : List (NlOut K)) (m : NlMpc d K) (x0 : Vec K) (cs : List (NlCallback K))
    (s : NlState d K), InSolver d dyn ops outs m x0 cs s → (∀ b, inScale ops b = 1) → (∀ a, stScale ops a = 1) →
    ∀ (F : DoubleFns d K) (z : Vec K), z.size = d.nZ → InsideLimits d ops outs z →
      DefinedOn F (last samplingOf ops).isSome (fun _ _ e => 0 ≤ e) → AllNumbers s F z

theorem setupN_in : ∃ m s, InSolver dN false (setupN HorizonSlice.all) [.unit, .bool true, .bool true] m (nvec 2 fun _ => 0) [] s := by
  obtain ⟨m, h⟩ := setupN_ran (s := HorizonSlice.all) (.inl rfl)
  obtain ⟨m', r, call, ha⟩ := h.asks (x0 := nvec 2 fun _ => 0) (u0 := nvec 1 fun _ => 0) (oc := .threw) rfl rfl
    (by rintro _ _ _ _ ⟨⟩) (by decide)
  obtain ⟨s, hs⟩ := ha.inSolver
  exact ⟨m, s, hs⟩

/-- all states at their upper limit 1, inputs and slack zero -/
def zD : Vec ℚ := ⟨9, fun p => if p < 6 then 1 else 0⟩

theorem zD_inside : InsideLimits dN (setupN HorizonSlice.all) [.unit, .bool true, .bool true] zD := by
  refine ⟨fun k a hk ha => ?_, fun j b _ _ => ?_, rfl⟩
  · rw [(setupN_limits _ k a).1]
    have : zD.get (stateIx dN k a) = 1 := by
      show (if k * 2 + a < 6 then (1 : ℚ) else 0) = 1
      change k < 3 at hk
      change a < 2 at ha
      rw [if_pos (by omega)]
    rw [this]
    split_ifs
    · exact ⟨(Ext.fin_le_fin _ _).2 (by norm_num), (Ext.fin_le_fin _ _).2 (le_refl _)⟩
    · exact within_inf _
  · rw [(setupN_limits _ j b).2]
    exact within_inf _

/-- the objective is a number only for states up to 1, for instance `sqrt (1 - x)` -/
def fnsD : DoubleFns dN ℚ where
  state := fun _ u _ _ => .fin (u 0)
  out := none
  obj := fun X _ _ _ => if 1 < X 1 0 then .nan else .fin 0
  ineq := fun _ _ _ _ _ => .fin 0
  eq := fun _ _ _ => .fin 0

/-- the objective is a number only for slacks which are not negative -/
def fnsE : DoubleFns dN ℚ := { fnsD with obj := fun _ _ _ e => if e < 0 then .nan else .fin 0 }

theorem inSlice_all (k : Nat) : InSlice HorizonSlice.all k := by
  simp [InSlice, HorizonSlice.all]

/-- C127 fails at the limits: the probe of a state at its upper limit is beyond it (Objective.hpp:206-215, no look at the bounds). -/
theorem c127_limits_violated : ¬ C127Claim ℚ := by
  intro H
  obtain ⟨m, s, h⟩ := setupN_in
  have hD : DefinedOn fnsD (last samplingOf (setupN HorizonSlice.all)).isSome
      (fun X U _ => WithinBy 0 (setupN HorizonSlice.all) [.unit, .bool true, .bool true] (fun a => (nvec 2 fun _ => 0).get a) X U) := by
    refine ⟨fun X U e hw => ?_, fun _ _ _ _ _ => ⟨0, rfl⟩, fun _ _ _ _ _ => ⟨0, rfl⟩, fun _ U _ _ k _ => ⟨U k.castSucc 0, rfl⟩,
      fun _ _ U _ _ k _ => ⟨U k.castSucc 0, rfl⟩⟩
    obtain ⟨w, h1, h2⟩ := hw.states 0 0
    rw [(setupN_limits _ _ _).1, if_pos (inSlice_all _)] at h1
    have e : X (Fin.succ (0 : Fin 3)) 0 = w := sub_eq_zero.1 (abs_eq_zero.1 (le_antisymm h2 (abs_nonneg _)))
    have : w ≤ 1 := (Ext.fin_le_fin _ _).1 h1.2
    refine ⟨0, if_neg (not_lt.2 ?_)⟩
    rw [← e] at this
    exact this
  obtain ⟨v, g, e, -, hn⟩ := (H dN false _ _ m _ [] s h (fun _ => rfl) (fun _ => rfl) fnsD zD rfl zD_inside hD).obj
  obtain ⟨v', g', hx, hu, he, e', px, -, -, h1, -⟩ := c126_objective_numbers h fnsD zD rfl
  rw [e] at e'
  obtain ⟨rfl, rfl⟩ : v = v' ∧ g = g' := by cases e'; exact ⟨rfl, rfl⟩
  have := ((h1 0 0 (by decide) (by decide)).1 (hn _ (by decide))).1
  refine notNumber_nan (K := ℚ) ?_
  have hh : costF fnsD (bump (statesOf (setupN HorizonSlice.all) (nvec 2 fun _ => 0) zD) (0 + 1) 0 (hx 0))
      (inputsOf (setupN HorizonSlice.all) zD) (zD.get (slackIx dN)) = .nan := by
    refine if_pos ?_
    show 1 < bump _ 1 0 (hx 0) (1 : Fin 4) (0 : Fin 2)
    unfold bump
    rw [if_pos ⟨rfl, rfl⟩]
    have : statesOf (setupN HorizonSlice.all) (nvec 2 fun _ => 0) zD (1 : Fin 4) (0 : Fin 2) = 1 := by
      show (1 : ℚ) * 1 = 1; norm_num
    rw [this]
    have := px 0
    linarith
  rw [← hh]
  exact this

/-- C127 fails for the slack: it is zero, and probed at a negative value (Objective.hpp:252-255). -/
theorem c127_slack_violated : ¬ C127SlackClaim ℚ := by
  intro H
  obtain ⟨m, s, h⟩ := setupN_in
  have hD : DefinedOn fnsE (last samplingOf (setupN HorizonSlice.all)).isSome (fun _ _ e => 0 ≤ e) :=
    ⟨fun X U e hw => ⟨0, if_neg (not_lt.2 hw)⟩, fun _ _ _ _ _ => ⟨0, rfl⟩, fun _ _ _ _ _ => ⟨0, rfl⟩,
      fun _ U _ _ k _ => ⟨U k.castSucc 0, rfl⟩, fun _ _ U _ _ k _ => ⟨U k.castSucc 0, rfl⟩⟩
  obtain ⟨v, g, e, -, hn⟩ := (H dN false _ _ m _ [] s h (fun _ => rfl) (fun _ => rfl) fnsE zD rfl zD_inside hD).obj
  obtain ⟨v', g', hx, hu, he, e', -, -, pe, -, h1, -⟩ := c126_objective_numbers h fnsE zD rfl
  rw [e] at e'
  obtain ⟨rfl, rfl⟩ : v = v' ∧ g = g' := by cases e'; exact ⟨rfl, rfl⟩
  have := (h1.1 (hn _ (by decide))).2
  refine notNumber_nan (K := ℚ) ?_
  have hh : costF fnsE (statesOf (setupN HorizonSlice.all) (nvec 2 fun _ => 0) zD) (inputsOf (setupN HorizonSlice.all) zD)
      (zD.get (slackIx dN) - he) = .nan := by
    refine if_pos ?_
    show (0 : ℚ) - he < 0
    linarith
  rw [← hh]
  exact this

/-! ### the hypotheses are met -/

/-- the hypotheses of `c127_limits_partial` (and, with it, of `c127_near_partial`): the objective `fnsD` with the root moved to 2 -/
example : ∃ m s, InSolver dN false (setupN HorizonSlice.all) [.unit, .bool true, .bool true] m (nvec 2 fun _ => 0) [] s ∧
    InsideLimits dN (setupN HorizonSlice.all) [.unit, .bool true, .bool true] zD ∧
    (∀ b, inScale (setupN HorizonSlice.all) b = 1) ∧ (∀ a, stScale (setupN HorizonSlice.all) a = 1) ∧
    (∀ k a, |statesOf (setupN HorizonSlice.all) (nvec 2 fun _ => 0) zD k a| ≤ 1) ∧
    (∀ k b, |inputsOf (setupN HorizonSlice.all) zD k b| ≤ 1) ∧
    DefinedOn { fnsD with obj := fun X _ _ _ => if 2 < X 1 0 then .nan else .fin 0 } (last samplingOf (setupN HorizonSlice.all)).isSome
      (fun X U e => WithinBy (1 / 1000000) (setupN HorizonSlice.all) [.unit, .bool true, .bool true]
        (fun a => (nvec 2 fun _ => 0).get a) X U ∧ |e| ≤ 1 / 1000000) := by
  obtain ⟨m, s, h⟩ := setupN_in
  refine ⟨m, s, h, zD_inside, fun _ => rfl, fun _ => rfl, fun k a => ?_, fun k b => ?_, ?_⟩
  · show abs (if (k : Nat) = 0 then (1 : ℚ) * 0 else 1 * (if _ < 6 then 1 else 0)) ≤ 1
    split_ifs <;> norm_num
  · show abs ((1 : ℚ) * (if _ < 6 then 1 else 0)) ≤ 1
    split_ifs <;> norm_num
  · refine ⟨fun X U e hw => ?_, fun _ _ _ _ _ => ⟨0, rfl⟩, fun _ _ _ _ _ => ⟨0, rfl⟩, fun _ U _ _ k _ => ⟨U k.castSucc 0, rfl⟩,
      fun _ _ U _ _ k _ => ⟨U k.castSucc 0, rfl⟩⟩
    obtain ⟨w, h1, h2⟩ := hw.1.states 0 0
    rw [(setupN_limits _ _ _).1, if_pos (inSlice_all _)] at h1
    have : w ≤ 1 := (Ext.fin_le_fin _ _).1 h1.2
    have h3 := (abs_le.1 h2).2
    refine ⟨0, if_neg (not_lt.2 ?_)⟩
    have h4 : X (Fin.succ (0 : Fin 3)) 0 ≤ 2 := by linarith
    exact h4

/-- the hypotheses of `c127_margin_partial`: the states in the middle of their limits, and the objective `fnsD` -/
example : (∀ w : Vec ℚ, w.size = dN.nZ → (∀ p, p < dN.nZ → |w.get p - (⟨9, fun _ => 0⟩ : Vec ℚ).get p| ≤ 1 / 1000000) →
    w.get (slackIx dN) = 0 → InsideLimits dN (setupN HorizonSlice.all) [.unit, .bool true, .bool true] w) := by
  intro w _ h h0
  refine ⟨fun k a hk ha => ?_, fun j b _ _ => ?_, h0⟩
  · rw [(setupN_limits _ k a).1]
    have := abs_le.1 (h (stateIx dN k a) (stateIx_lt hk ha))
    have h1 : -(1 / 1000000) ≤ w.get (stateIx dN k a) - 0 := this.1
    have h2 : w.get (stateIx dN k a) - 0 ≤ 1 / 1000000 := this.2
    split_ifs
    · exact ⟨(Ext.fin_le_fin _ _).2 (by linarith), (Ext.fin_le_fin _ _).2 (by linarith)⟩
    · exact within_inf _
  · rw [(setupN_limits _ j b).2]
    exact within_inf _

end Mpc.Props
