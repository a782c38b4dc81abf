import Verif.Model.Rounding
import Verif.Proofs.Stats

/- The statistics in floating-point arithmetic: what one more solution time does. -/
namespace Mpc
open Mpc.Spec

noncomputable section
variable {R : Rounding ℝ}

theorem Rounding.le_up (R : Rounding ℝ) {x : ℝ} (hx : 0 ≤ x) : R.rnd x ≤ (1 + R.eps) * x := by
  have := (abs_le.1 (R.err x)).2
  rw [abs_of_nonneg hx] at this
  linarith

theorem Rounding.le_down (R : Rounding ℝ) {x : ℝ} (hx : 0 ≤ x) : (1 - R.eps) * x ≤ R.rnd x := by
  have := (abs_le.1 (R.err x)).1
  rw [abs_of_nonneg hx] at this
  linarith

theorem Rounding.nonneg (R : Rounding ℝ) {x : ℝ} (hx : 0 ≤ x) : 0 ≤ R.rnd x := by
  have := R.mono 0 x hx
  rwa [Rounding.zero] at this

/-- the running average in floating-point arithmetic -/
def nextAvg (rnd : ℝ → ℝ) (n : Nat) (t av : ℝ) : ℝ :=
  rnd (rnd (1 / ((n + 1 : Nat) : ℝ)) * rnd (t + rnd ((((n + 1 : Nat) : ℝ) - 1) * av)))

theorem add_spec_rnd {s s' : SolutionStats} {t : ℝ} {rnd : ℝ → ℝ} (h : s.addSolutionTime t rnd = .ok s') :
    s'.minSolutionTime = min t s.minSolutionTime ∧ s'.maxSolutionTime = max t s.maxSolutionTime ∧
    s'.averageSolutionTime = nextAvg rnd s.numberOfSolutions t s.averageSolutionTime ∧
    s'.totalSolutionTime = rnd (s.totalSolutionTime + t) ∧ s'.numberOfSolutions = s.numberOfSolutions + 1 := by
  obtain ⟨mn, mx, av, tot, sts, sd, n⟩ := s
  simp only [SolutionStats.addSolutionTime, incr] at h
  by_cases hl : n < intMax
  swap
  · rw [if_neg hl] at h; cases h
  rw [if_pos hl] at h
  simp only [Exec.ok_bind] at h
  rw [if_pos (Nat.succ_pos _)] at h
  have e1 : min t mn = if t < mn then t else mn := by
    split_ifs with g
    · exact min_eq_left g.le
    · exact min_eq_right (not_lt.1 g)
  have e2 : max t mx = if t > mx then t else mx := by
    split_ifs with g
    · exact max_eq_left (le_of_lt g)
    · exact max_eq_right (not_lt.1 g)
  by_cases h1 : t < mn <;> by_cases h2 : t > mx <;> by_cases h3 : n = 0
  all_goals
    first
    | (have h3' : n + 1 = 1 := by omega)
    | (have h3' : ¬ n + 1 = 1 := by omega)
    simp only [h1, h2, h3', if_true, if_false] at h
    cases h
    simp only [e1, e2, h1, h2, if_true, if_false, nextAvg, true_and, and_true]
    try simp [h3]

/-- what is known about the statistics in floating-point arithmetic; `l` are the measured durations -/
structure StatRnd (R : Rounding ℝ) (big : ℝ) (s : SolutionStats) (l : List ℝ) : Prop where
  num : s.numberOfSolutions = l.length
  minLe : ∀ t ∈ l, s.minSolutionTime ≤ t
  minMem : (l ≠ [] ∧ s.minSolutionTime ∈ l) ∨ (l = [] ∧ s.minSolutionTime = big)
  maxLe : ∀ t ∈ l, t ≤ s.maxSolutionTime
  maxMem : (l ≠ [] ∧ s.maxSolutionTime ∈ l) ∨ (l = [] ∧ s.maxSolutionTime = -big)
  avg0 : l = [] → s.averageSolutionTime = 0
  totUp : (∀ t ∈ l, 0 ≤ t) → s.totalSolutionTime ≤ (1 + R.eps) ^ l.length * l.sum
  totDown : (∀ t ∈ l, 0 ≤ t) → (1 - R.eps) ^ l.length * l.sum ≤ s.totalSolutionTime
  avgUp : (∀ t ∈ l, 0 ≤ t) → l.length * s.averageSolutionTime ≤ (1 + R.eps) ^ (4 * l.length) * l.sum
  avgDown : (∀ t ∈ l, 0 ≤ t) → (1 - R.eps) ^ (4 * l.length) * l.sum ≤ l.length * s.averageSolutionTime

theorem statRnd_clear (big : ℝ) : StatRnd R big (.clear big) [] := by
  constructor <;> simp [SolutionStats.clear]

theorem StatRnd.add (he : R.eps ≤ 1) {big t : ℝ} {s s' : SolutionStats} {l : List ℝ} (h : StatRnd R big s l)
    (hb : |t| ≤ big) (ha : s.addSolutionTime t R.rnd = .ok s') : StatRnd R big s' (l ++ [t]) := by
  obtain ⟨a1, a2, a3, a4, a5⟩ := add_spec_rnd ha
  have h0 := R.eps_nonneg
  rw [abs_le] at hb
  have hall : (∀ u ∈ l ++ [t], 0 ≤ u) → (∀ u ∈ l, 0 ≤ u) ∧ 0 ≤ t :=
    fun g => ⟨fun u hu => g u (by simp [hu]), g t (by simp)⟩
  have hU : (1 : ℝ) ≤ 1 + R.eps := by linarith
  have hD0 : (0 : ℝ) ≤ 1 - R.eps := by linarith
  have hD1 : 1 - R.eps ≤ 1 := by linarith
  have hs0 : (∀ u ∈ l, (0 : ℝ) ≤ u) → 0 ≤ l.sum := fun g => List.sum_nonneg g
  have hlen : (l ++ [t]).length = l.length + 1 := by simp
  have hsum : (l ++ [t]).sum = l.sum + t := by simp
  have hn : (0 : ℝ) ≤ l.length := by positivity
  have hn1 : (0 : ℝ) < (l.length : ℝ) + 1 := by positivity
  refine ⟨by rw [a5, h.num, hlen], ?_, .inl ⟨by simp, ?_⟩, ?_, .inl ⟨by simp, ?_⟩, by simp, ?_, ?_, ?_, ?_⟩
  · intro u hu
    rw [a1]
    rcases List.mem_append.1 hu with hu | hu
    · exact (min_le_right _ _).trans (h.minLe u hu)
    · rw [List.mem_singleton.1 hu]; exact min_le_left _ _
  · rw [a1]
    rcases h.minMem with ⟨-, hm⟩ | ⟨rfl, hm⟩
    · rcases min_choice t s.minSolutionTime with e | e <;> rw [e] <;> simp [hm]
    · rw [hm, min_eq_left hb.2]; simp
  · intro u hu
    rw [a2]
    rcases List.mem_append.1 hu with hu | hu
    · exact (h.maxLe u hu).trans (le_max_right _ _)
    · rw [List.mem_singleton.1 hu]; exact le_max_left _ _
  · rw [a2]
    rcases h.maxMem with ⟨-, hm⟩ | ⟨rfl, hm⟩
    · rcases max_choice t s.maxSolutionTime with e | e <;> rw [e] <;> simp [hm]
    · rw [hm, max_eq_left hb.1]; simp
  · intro g
    obtain ⟨g1, g2⟩ := hall g
    rw [a4, hlen, hsum, pow_succ']
    have i1 := h.totUp g1
    have i2 : 0 ≤ s.totalSolutionTime := le_trans (mul_nonneg (pow_nonneg hD0 _) (hs0 g1)) (h.totDown g1)
    have i3 : (1 : ℝ) ≤ (1 + R.eps) ^ l.length := one_le_pow₀ hU
    have i4 : t ≤ (1 + R.eps) ^ l.length * t := by nlinarith
    refine (R.le_up (add_nonneg i2 g2)).trans ?_
    rw [mul_assoc]
    refine mul_le_mul_of_nonneg_left ?_ (by linarith)
    rw [mul_add]; linarith
  · intro g
    obtain ⟨g1, g2⟩ := hall g
    rw [a4, hlen, hsum, pow_succ']
    have i1 := h.totDown g1
    have i2 : 0 ≤ s.totalSolutionTime := le_trans (mul_nonneg (pow_nonneg hD0 _) (hs0 g1)) (h.totDown g1)
    have i3 : (1 - R.eps) ^ l.length ≤ 1 := pow_le_one₀ hD0 hD1
    have i4 : (1 - R.eps) ^ l.length * t ≤ t := by nlinarith
    refine le_trans ?_ (R.le_down (add_nonneg i2 g2))
    rw [mul_assoc]
    refine mul_le_mul_of_nonneg_left ?_ hD0
    rw [mul_add]; linarith
  · intro g
    obtain ⟨g1, g2⟩ := hall g
    have b1 := h.avgUp g1
    have b0 : 0 ≤ (l.length : ℝ) * s.averageSolutionTime :=
      le_trans (mul_nonneg (pow_nonneg hD0 _) (hs0 g1)) (h.avgDown g1)
    rw [a3, nextAvg, h.num, hlen, hsum]
    push_cast
    rw [add_sub_cancel_right]
    set x := (l.length : ℝ) * s.averageSolutionTime with hx
    have c1 := R.le_up b0
    have c0 := R.nonneg b0
    have d1 := R.le_up (add_nonneg g2 c0)
    have d0 := R.nonneg (add_nonneg g2 c0)
    have e0 : (0 : ℝ) ≤ 1 / ((l.length : ℝ) + 1) := by positivity
    have e1 := R.le_up e0
    have f0 := R.nonneg e0
    have k1 := R.le_up (mul_nonneg f0 d0)
    have d2 : R.rnd (t + R.rnd x) ≤ (1 + R.eps) ^ 2 * (t + x) := by
      refine d1.trans ?_
      have : t + R.rnd x ≤ (1 + R.eps) * (t + x) := by nlinarith
      nlinarith
    have k2 : R.rnd (1 / ((l.length : ℝ) + 1)) * R.rnd (t + R.rnd x)
        ≤ (1 + R.eps) * (1 / ((l.length : ℝ) + 1)) * ((1 + R.eps) ^ 2 * (t + x)) :=
      mul_le_mul e1 d2 d0 (mul_nonneg (by linarith) e0)
    have k3 : ((l.length : ℝ) + 1) * R.rnd (R.rnd (1 / ((l.length : ℝ) + 1)) * R.rnd (t + R.rnd x))
        ≤ (1 + R.eps) ^ 4 * (t + x) := by
      have := mul_le_mul_of_nonneg_left (k1.trans (mul_le_mul_of_nonneg_left k2 (by linarith : 0 ≤ 1 + R.eps))) hn1.le
      refine this.trans (le_of_eq ?_)
      field_simp
    refine k3.trans ?_
    rw [show 4 * (l.length + 1) = 4 + 4 * l.length by ring, pow_add, mul_assoc]
    refine mul_le_mul_of_nonneg_left ?_ (by positivity)
    have i3 : (1 : ℝ) ≤ (1 + R.eps) ^ (4 * l.length) := one_le_pow₀ hU
    have i4 : t ≤ (1 + R.eps) ^ (4 * l.length) * t := by nlinarith
    rw [mul_add]; linarith
  · intro g
    obtain ⟨g1, g2⟩ := hall g
    have b1 := h.avgDown g1
    have b0 : 0 ≤ (l.length : ℝ) * s.averageSolutionTime :=
      le_trans (mul_nonneg (pow_nonneg hD0 _) (hs0 g1)) (h.avgDown g1)
    rw [a3, nextAvg, h.num, hlen, hsum]
    push_cast
    rw [add_sub_cancel_right]
    set x := (l.length : ℝ) * s.averageSolutionTime with hx
    have c1 := R.le_down b0
    have c0 := R.nonneg b0
    have d1 := R.le_down (add_nonneg g2 c0)
    have d0 := R.nonneg (add_nonneg g2 c0)
    have e0 : (0 : ℝ) ≤ 1 / ((l.length : ℝ) + 1) := by positivity
    have e1 := R.le_down e0
    have f0 := R.nonneg e0
    have k1 := R.le_down (mul_nonneg f0 d0)
    have d2 : (1 - R.eps) ^ 2 * (t + x) ≤ R.rnd (t + R.rnd x) := by
      refine le_trans ?_ d1
      have : (1 - R.eps) * (t + x) ≤ t + R.rnd x := by nlinarith
      nlinarith
    have k2 : (1 - R.eps) * (1 / ((l.length : ℝ) + 1)) * ((1 - R.eps) ^ 2 * (t + x))
        ≤ R.rnd (1 / ((l.length : ℝ) + 1)) * R.rnd (t + R.rnd x) :=
      mul_le_mul e1 d2 (mul_nonneg (by positivity) (add_nonneg g2 b0)) f0
    have k3 : (1 - R.eps) ^ 4 * (t + x)
        ≤ ((l.length : ℝ) + 1) * R.rnd (R.rnd (1 / ((l.length : ℝ) + 1)) * R.rnd (t + R.rnd x)) := by
      have := mul_le_mul_of_nonneg_left ((mul_le_mul_of_nonneg_left k2 hD0).trans k1) hn1.le
      refine le_trans (le_of_eq ?_) this
      field_simp
    refine le_trans ?_ k3
    rw [show 4 * (l.length + 1) = 4 + 4 * l.length by ring, pow_add, mul_assoc]
    refine mul_le_mul_of_nonneg_left ?_ (by positivity)
    have i3 : (1 - R.eps) ^ (4 * l.length) ≤ 1 := pow_le_one₀ hD0 hD1
    have i4 : (1 - R.eps) ^ (4 * l.length) * t ≤ t := by nlinarith
    rw [mul_add]; linarith

theorem exec_statRnd (he : R.eps ≤ 1) {big t0 : ℝ} (hbig : R.rnd big = big) (ops : List StatOp) (hr : Representable big ops)
    {p : Profiler} (h : (Profiler.new big t0).exec big ops R.rnd = .ok p) :
    StatRnd R big p.stats ((durations ops).map R.rnd) := by
  induction ops using List.reverseRecOn generalizing p with
  | nil => cases h; exact statRnd_clear big
  | append_singleton ops op ih =>
    rw [exec_snoc_rnd, Exec.bind_eq_ok] at h
    obtain ⟨q, h1, h2⟩ := h
    have hi := ih (fun a b c hm => hr a b c (List.mem_append_left _ hm)) h1
    unfold durations at hi ⊢
    rw [recorded_snoc]
    cases op with
    | resetStats => cases h2; exact statRnd_clear big
    | optimize a b st =>
      cases st with
      | none => cases h2; simpa [isReset, entry, Profiler.solutionStart] using hi
      | some st =>
        simp only [Profiler.step, Profiler.solutionEnd, Profiler.solutionStart, Exec.bind_eq_ok] at h2
        obtain ⟨⟨p', t⟩, ⟨s1, e1, s2, e2, e3⟩, e4⟩ := h2
        cases e3
        cases e4
        have hs := countStatus_spec e1
        have hi' : StatRnd R big s1 ((List.map Prod.snd (recorded ops)).map R.rnd) := by
          rw [hs]; exact ⟨hi.1, hi.2, hi.3, hi.4, hi.5, hi.6, hi.7, hi.8, hi.9, hi.10⟩
        have hb : |R.rnd (b - a)| ≤ big := by
          have := abs_le.1 (hr a b (some st) (by simp))
          rw [abs_le]
          constructor
          · have := R.mono _ _ this.1
            rwa [R.odd, hbig] at this
          · have := R.mono _ _ this.2
            rwa [hbig] at this
        have := hi'.add he hb e2
        simpa [isReset, entry] using this

/-- a history with fewer than 2^31 - 1 calls does not overflow the counters -/
theorem exec_ok_rnd {big t0 : ℝ} (rnd : ℝ → ℝ) (ops : List StatOp) (hl : ops.length < intMax) :
    ∃ p, (Profiler.new big t0).exec big ops rnd = .ok p ∧ p.stats.numberOfSolutions ≤ ops.length ∧
      ∀ st, (p.stats.solutionsStates st).getD 0 ≤ ops.length := by
  induction ops using List.reverseRecOn with
  | nil => exact ⟨_, rfl, by simp [Profiler.new, SolutionStats.clear], by simp [Profiler.new, SolutionStats.clear]⟩
  | append_singleton ops op ih =>
    have hlen : ops.length + 1 < intMax := by simpa using hl
    obtain ⟨q, hq, h1, h2⟩ := ih (by omega)
    rw [exec_snoc_rnd, hq, Exec.ok_bind]
    have hL : (ops ++ [op]).length = ops.length + 1 := by simp
    rw [hL]
    cases op with
    | resetStats =>
      exact ⟨_, rfl, by simp [Profiler.reset, SolutionStats.clear], by simp [Profiler.reset, SolutionStats.clear]⟩
    | optimize a b st =>
      cases st with
      | none => exact ⟨_, rfl, by simp only [Profiler.solutionStart]; omega, fun st => by
          have := h2 st; simp only [Profiler.solutionStart]; omega⟩
      | some st =>
        obtain ⟨s1, e1⟩ : ∃ s1, q.stats.countStatus st = .ok s1 := by
          unfold SolutionStats.countStatus incr
          rw [if_pos (by have := h2 st; omega)]
          exact ⟨_, rfl⟩
        have hs := countStatus_spec e1
        obtain ⟨s2, e2⟩ : ∃ s2, s1.addSolutionTime (rnd (b - a)) rnd = .ok s2 := by
          have hn : s1.numberOfSolutions < intMax := by rw [hs]; show q.stats.numberOfSolutions < intMax; omega
          unfold SolutionStats.addSolutionTime incr
          simp only [hn, if_true, Exec.ok_bind]
          split_ifs <;> exact ⟨_, rfl⟩
        have hst : s2.solutionsStates = s1.solutionsStates := by
          unfold SolutionStats.addSolutionTime incr at e2
          have hn : s1.numberOfSolutions < intMax := by rw [hs]; show q.stats.numberOfSolutions < intMax; omega
          simp only [hn, if_true, Exec.ok_bind] at e2
          split_ifs at e2 <;> cases e2 <;> rfl
        simp only [Profiler.step, Profiler.solutionEnd, Profiler.solutionStart, e1, Exec.ok_bind, e2]
        refine ⟨_, rfl, ?_, fun u => ?_⟩
        · show s2.numberOfSolutions ≤ _
          rw [(add_spec_rnd e2).2.2.2.2, hs]
          show q.stats.numberOfSolutions + 1 ≤ _
          omega
        · show (s2.solutionsStates u).getD 0 ≤ _
          rw [hst, hs]
          have := h2 u
          dsimp only
          split_ifs with hu
          · subst hu
            simp only [Option.getD_some]
            omega
          · omega

end
end Mpc
