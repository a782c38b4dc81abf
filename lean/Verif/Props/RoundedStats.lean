import Verif.Proofs.RoundStats

/-
C109: the execution statistics in floating-point arithmetic. `R` is any rounding, for instance the one of `double`
(`Rounding.binary ℝ 53`); `measured R ops` are the durations of the solutions since the last reset as `double`s.
-/
namespace Mpc.Props
open Mpc.Spec
noncomputable section

variable {R : Rounding ℝ} {big t0 : ℝ} {ops : List StatOp} {p : Profiler}

/-- the durations of the solutions since the last reset, as the profiler measures them -/
def measured (R : Rounding ℝ) (ops : List StatOp) : List ℝ := (durations ops).map R.rnd

/-- C109 as claimed: the reported average lies between the reported minimum and maximum. -/
def C109Claim (R : Rounding ℝ) : Prop := ∀ (big t0 : ℝ) (ops : List StatOp) (p : Profiler), Representable big ops →
  R.rnd big = big → (Profiler.new big t0).exec big ops R.rnd = .ok p → measured R ops ≠ [] →
  p.stats.minSolutionTime ≤ p.stats.averageSolutionTime ∧ p.stats.averageSolutionTime ≤ p.stats.maxSolutionTime

/-- C109: number, minimum and maximum are exact. -/
theorem c109_extremes_partial (he : R.eps ≤ 1) (hb : R.rnd big = big) (hr : Representable big ops)
    (h : (Profiler.new big t0).exec big ops R.rnd = .ok p) :
    p.stats.numberOfSolutions = (measured R ops).length ∧
    (measured R ops ≠ [] → IsLeast {t | t ∈ measured R ops} p.stats.minSolutionTime ∧
      IsGreatest {t | t ∈ measured R ops} p.stats.maxSolutionTime) := by
  have hi := exec_statRnd he hb ops hr h
  refine ⟨hi.num, fun hne => ⟨⟨?_, fun t ht => hi.minLe t ht⟩, ?_, fun t ht => hi.maxLe t ht⟩⟩
  · rcases hi.minMem with ⟨-, hm⟩ | ⟨hm, -⟩
    · exact hm
    · exact absurd hm hne
  · rcases hi.maxMem with ⟨-, hm⟩ | ⟨hm, -⟩
    · exact hm
    · exact absurd hm hne

/-- C109: total and average of `n` durations are those of the measured durations up to the factors `(1 ± eps)^n` and
`(1 ± eps)^(4 n)` (for a clock which does not go backwards). -/
theorem c109_average_partial (he : R.eps ≤ 1) (hb : R.rnd big = big) (hr : Representable big ops)
    (h : (Profiler.new big t0).exec big ops R.rnd = .ok p) (hc : ∀ t ∈ durations ops, 0 ≤ t) (hne : measured R ops ≠ []) :
    (1 - R.eps) ^ (measured R ops).length * (measured R ops).sum ≤ p.stats.totalSolutionTime ∧
    p.stats.totalSolutionTime ≤ (1 + R.eps) ^ (measured R ops).length * (measured R ops).sum ∧
    (1 - R.eps) ^ (4 * (measured R ops).length) * mean (measured R ops) ≤ p.stats.averageSolutionTime ∧
    p.stats.averageSolutionTime ≤ (1 + R.eps) ^ (4 * (measured R ops).length) * mean (measured R ops) := by
  have hi := exec_statRnd he hb ops hr h
  have h0 : ∀ t ∈ measured R ops, 0 ≤ t := by
    intro t ht
    obtain ⟨u, hu, rfl⟩ := List.mem_map.1 ht
    exact R.nonneg (hc u hu)
  have hn : (0 : ℝ) < (measured R ops).length := by
    have := List.length_pos_iff.2 hne
    exact_mod_cast this
  refine ⟨hi.totDown h0, hi.totUp h0, ?_, ?_⟩
  · unfold mean
    rw [← mul_div_assoc, div_le_iff₀ hn, mul_comm p.stats.averageSolutionTime]
    exact hi.avgDown h0
  · unfold mean
    rw [← mul_div_assoc, le_div_iff₀ hn, mul_comm p.stats.averageSolutionTime]
    exact hi.avgUp h0

theorem mean_between {l : List ℝ} (hne : l ≠ []) {a b : ℝ} (ha : ∀ t ∈ l, a ≤ t) (hb : ∀ t ∈ l, t ≤ b) :
    a ≤ mean l ∧ mean l ≤ b := by
  have hn : (0 : ℝ) < l.length := by
    have := List.length_pos_iff.2 hne
    exact_mod_cast this
  have key : ∀ l : List ℝ, (∀ t ∈ l, a ≤ t) → (∀ t ∈ l, t ≤ b) → (l.length : ℝ) * a ≤ l.sum ∧ l.sum ≤ l.length * b := by
    intro l
    induction l with
    | nil => simp
    | cons t l ih =>
      intro h1 h2
      obtain ⟨i1, i2⟩ := ih (fun u hu => h1 u (by simp [hu])) (fun u hu => h2 u (by simp [hu]))
      have j1 := h1 t (by simp)
      have j2 := h2 t (by simp)
      simp only [List.length_cons, List.sum_cons]
      push_cast
      constructor <;> linarith
  obtain ⟨k1, k2⟩ := key l ha hb
  unfold mean
  rw [le_div_iff₀ hn, div_le_iff₀ hn]
  constructor <;> linarith

/-- C109: how far the average can be outside: by the factors `(1 ± eps)^(4 n)`. -/
theorem c109_nearly_between_partial (he : R.eps ≤ 1) (hb : R.rnd big = big) (hr : Representable big ops)
    (h : (Profiler.new big t0).exec big ops R.rnd = .ok p) (hc : ∀ t ∈ durations ops, 0 ≤ t) (hne : measured R ops ≠ []) :
    (1 - R.eps) ^ (4 * (measured R ops).length) * p.stats.minSolutionTime ≤ p.stats.averageSolutionTime ∧
    p.stats.averageSolutionTime ≤ (1 + R.eps) ^ (4 * (measured R ops).length) * p.stats.maxSolutionTime := by
  obtain ⟨-, -, h1, h2⟩ := c109_average_partial he hb hr h hc hne
  obtain ⟨e1, e2⟩ := (c109_extremes_partial he hb hr h).2 hne
  obtain ⟨m1, m2⟩ := mean_between hne (fun t ht => e1.2 ht) (fun t ht => e2.2 ht)
  have := R.eps_nonneg
  exact ⟨(mul_le_mul_of_nonneg_left m1 (pow_nonneg (by linarith) _)).trans h1,
    h2.trans (mul_le_mul_of_nonneg_left m2 (pow_nonneg (by linarith) _))⟩

/-- C109, no overflow of the counters within 2^31 - 2 calls. -/
theorem c109_no_overflow_partial (hl : ops.length < 2 ^ 31 - 1) : ∃ p, (Profiler.new big t0).exec big ops R.rnd = .ok p := by
  obtain ⟨p, hp, -⟩ := exec_ok_rnd (big := big) (t0 := t0) R.rnd ops hl
  exact ⟨p, hp⟩

/-! ### `double` -/

/-- IEEE double precision, over the reals -/
abbrev ieee : Rounding ℝ := Rounding.binary ℝ 53 (by norm_num)

theorem roundEven_of {y : ℝ} {n : ℤ} (h : |y - n| < 1 / 2 ∨ (|y - n| ≤ 1 / 2 ∧ Even n)) : roundEven y = n := by
  have hle : |y - n| ≤ 1 / 2 := by rcases h with h | h; exacts [h.le, h.1]
  obtain ⟨h1, h2⟩ := abs_le.1 hle
  have f1 := Int.floor_le y
  have f2 := Int.lt_floor_add_one y
  have hf : ⌊y⌋ = n ∨ ⌊y⌋ = n - 1 := by
    have a : ((⌊y⌋ : ℤ) : ℝ) < n + 1 := by linarith
    have b : (n : ℝ) - 2 < ⌊y⌋ := by linarith
    have a' : ⌊y⌋ < n + 1 := by exact_mod_cast a
    have b' : n - 2 < ⌊y⌋ := by exact_mod_cast b
    omega
  unfold roundEven
  rcases hf with hf | hf
  · rw [hf]
    split_ifs with g1 g2 g3
    · rfl
    · exfalso; linarith
    · rfl
    · exfalso
      rcases h with h | h
      · rw [abs_lt] at h; linarith
      · exact g3 h.2
  · rw [hf]
    push_cast
    split_ifs with g1 g2 g3
    · exfalso; linarith
    · omega
    · exfalso
      rcases h with h | h
      · rw [abs_lt] at h; linarith
      · have := h.2; rw [Int.even_sub_one] at g3; exact g3 this
    · omega

/-- evaluating a rounding: the exponent and the nearest significand -/
theorem ieee_eval {x : ℝ} {e n : ℤ} (hlo : (2 : ℝ) ^ e ≤ x) (hhi : x < 2 ^ (e + 1))
    (h : |x / 2 ^ (e - 52) - n| < 1 / 2 ∨ (|x / 2 ^ (e - 52) - n| ≤ 1 / 2 ∧ Even n)) :
    ieee.rnd x = n * 2 ^ (e - 52) := by
  have hx : 0 < x := lt_of_lt_of_le (zpow_pos (by norm_num) _) hlo
  have hl : Int.log 2 |x| = e := by
    rw [abs_of_pos hx]
    apply le_antisymm
    · rw [← Int.lt_add_one_iff, ← Int.lt_zpow_iff_log_lt (by norm_num) hx]
      exact_mod_cast hhi
    · rw [← Int.zpow_le_iff_le_log (by norm_num) hx]
      exact_mod_cast hlo
  have hu : ulp 53 x = 2 ^ (e - 52) := by
    unfold ulp; rw [hl]; congr 1; norm_num; ring
  show roundBits 53 x = _
  unfold roundBits
  rw [hu, roundEven_of h]

/-- three calls of five milliseconds each -/
def threeCalls : List StatOp :=
  [.optimize 0 (5 / 1000) (some .SUCCESS), .optimize 1 (1 + 5 / 1000) (some .SUCCESS), .optimize 2 (2 + 5 / 1000) (some .SUCCESS)]

/-- five milliseconds as a `double` -/
def fiveMs : ℝ := 5764607523034235 / 2 ^ 60

theorem ieee_fiveMs : ieee.rnd (5 / 1000) = fiveMs := by
  rw [ieee_eval (e := -8) (n := 5764607523034235) (by norm_num) (by norm_num) (.inl (by rw [abs_lt]; constructor <;> norm_num))]
  unfold fiveMs
  norm_num

theorem ieee_fixed (n k : ℤ) (h : |n| ≤ 2 ^ 53) : ieee.rnd (n * 2 ^ k) = n * 2 ^ k := roundBits_fixed (by norm_num) h

theorem ieee_fiveMs_fixed : ieee.rnd fiveMs = fiveMs := by
  have := ieee_fixed 5764607523034235 (-60) (by norm_num)
  unfold fiveMs
  norm_num at this ⊢
  exact this

theorem ieee_one : ieee.rnd 1 = 1 := ieee.one

theorem ieee_half : ieee.rnd (1 / 2) = 1 / 2 := by
  have := ieee_fixed 1 (-1) (by norm_num)
  norm_num at this ⊢
  exact this

theorem ieee_double : ieee.rnd (2 * fiveMs) = 2 * fiveMs := by
  have := ieee_fixed 5764607523034235 (-59) (by norm_num)
  have e : 2 * fiveMs = ((5764607523034235 : ℤ) : ℝ) * 2 ^ (-59 : ℤ) := by unfold fiveMs; norm_num
  rw [e]; exact this

theorem ieee_third : ieee.rnd (1 / 3) = 6004799503160661 / 2 ^ 54 := by
  rw [ieee_eval (e := -2) (n := 6004799503160661) (by norm_num) (by norm_num) (.inl (by rw [abs_lt]; constructor <;> norm_num))]
  norm_num

theorem ieee_triple : ieee.rnd (fiveMs + 2 * fiveMs) = 8646911284551352 / 2 ^ 59 := by
  rw [ieee_eval (e := -7) (n := 8646911284551352) (by unfold fiveMs; norm_num) (by unfold fiveMs; norm_num)
    (.inr ⟨by unfold fiveMs; rw [abs_le]; constructor <;> norm_num, by decide⟩)]
  norm_num

theorem ieee_average : ieee.rnd (6004799503160661 / 2 ^ 54 * (8646911284551352 / 2 ^ 59)) = 5764607523034234 / 2 ^ 60 := by
  rw [ieee_eval (e := -8) (n := 5764607523034234) (by norm_num) (by norm_num)
    (.inl (by rw [abs_lt]; constructor <;> norm_num))]
  norm_num

theorem three_rep : Representable 100 threeCalls := by
  intro a b st h
  simp [threeCalls] at h
  rcases h with ⟨rfl, rfl, -⟩ | ⟨rfl, rfl, -⟩ | ⟨rfl, rfl, -⟩ <;> norm_num

theorem three_measured : measured ieee threeCalls = [fiveMs, fiveMs, fiveMs] := by
  have : durations threeCalls = [5 / 1000, 5 / 1000, 5 / 1000] := by
    simp [durations, recorded, sinceReset, threeCalls, isReset, entry, List.takeWhile]
  rw [measured, this]
  simp only [List.map_cons, List.map_nil, ieee_fiveMs]

theorem ieee_big : ieee.rnd 100 = 100 := by
  have := ieee_fixed 100 0 (by norm_num)
  norm_num at this
  exact this

theorem three_ran : ∃ p, (Profiler.new 100 0).exec 100 threeCalls ieee.rnd = .ok p ∧
    p.stats.averageSolutionTime = 5764607523034234 / 2 ^ 60 := by
  obtain ⟨p, hp⟩ := c109_no_overflow_partial (R := ieee) (big := 100) (t0 := 0) (ops := threeCalls) (by simp [threeCalls])
  refine ⟨p, hp, ?_⟩
  simp only [threeCalls, Profiler.exec, Exec.bind_eq_ok] at hp
  obtain ⟨p1, h1, p2, h2, p3, h3, h4⟩ := hp
  cases h4
  simp only [Profiler.step, Profiler.solutionEnd, Profiler.solutionStart, Exec.bind_eq_ok] at h1 h2 h3
  obtain ⟨⟨q1, t1⟩, ⟨s1, a1, s2, a2, a3⟩, a4⟩ := h1
  cases a3; cases a4
  obtain ⟨⟨q2, t2⟩, ⟨s3, b1, s4, b2, b3⟩, b4⟩ := h2
  cases b3; cases b4
  obtain ⟨⟨q3, t3⟩, ⟨s5, c1, s6, c2, c3⟩, c4⟩ := h3
  cases c3; cases c4
  have d1 := countStatus_spec a1
  have d2 := add_spec_rnd a2
  have d3 := countStatus_spec b1
  have d4 := add_spec_rnd b2
  have d5 := countStatus_spec c1
  have d6 := add_spec_rnd c2
  have e1 : s2.averageSolutionTime = fiveMs ∧ s2.numberOfSolutions = 1 := by
    rw [d2.2.2.1, d2.2.2.2.2, d1]
    refine ⟨?_, rfl⟩
    simp only [Profiler.new, SolutionStats.clear, nextAvg]
    rw [show ((5 : ℝ) / 1000 - 0) = 5 / 1000 by ring, ieee_fiveMs]
    norm_num [ieee_one, Rounding.zero, ieee_fiveMs_fixed]
  have e2 : s4.averageSolutionTime = fiveMs ∧ s4.numberOfSolutions = 2 := by
    rw [d4.2.2.1, d4.2.2.2.2, d3]
    refine ⟨?_, by show s2.numberOfSolutions + 1 = 2; rw [e1.2]⟩
    simp only [nextAvg, e1.1, e1.2]
    rw [show ((1 : ℝ) + 5 / 1000 - 1) = 5 / 1000 by ring, ieee_fiveMs]
    have k1 : (1 / ((1 + 1 : Nat) : ℝ)) = 1 / 2 := by norm_num
    have k2 : (((1 + 1 : Nat) : ℝ) - 1) * fiveMs = fiveMs := by norm_num
    rw [k1, k2, ieee_half, ieee_fiveMs_fixed, ← two_mul, ieee_double, show (1 / 2 * (2 * fiveMs)) = fiveMs by ring, ieee_fiveMs_fixed]
  show s6.averageSolutionTime = _
  rw [d6.2.2.1, d5]
  simp only [nextAvg, e2.1, e2.2]
  rw [show ((2 : ℝ) + 5 / 1000 - 2) = 5 / 1000 by ring, ieee_fiveMs]
  have k1 : (1 / ((2 + 1 : Nat) : ℝ)) = 1 / 3 := by norm_num
  have k2 : (((2 + 1 : Nat) : ℝ) - 1) * fiveMs = 2 * fiveMs := by norm_num
  rw [k1, k2, ieee_third, ieee_double, ieee_triple, ieee_average]

/-- C109 is violated with `double`s: of three solutions which take five milliseconds each the reported average is less than the
reported minimum. -/
theorem c109_average_violated : ¬ C109Claim ieee := by
  intro hc
  obtain ⟨p, hp, ha⟩ := three_ran
  have h1 := (hc _ _ _ _ three_rep ieee_big hp (by rw [three_measured]; simp)).1
  have he : ieee.eps ≤ 1 := by show ((1 : ℝ) / 2) ^ 53 ≤ 1; norm_num
  have h2 := ((c109_extremes_partial he ieee_big three_rep hp).2 (by rw [three_measured]; simp)).1.1
  rw [three_measured] at h2
  have h3 : p.stats.minSolutionTime = fiveMs := by simpa using h2
  rw [ha, h3] at h1
  unfold fiveMs at h1
  norm_num at h1

/-- non-vacuity of the partial theorems -/
example : ieee.eps ≤ 1 ∧ ieee.rnd 100 = 100 ∧ Representable 100 threeCalls ∧
    (∃ p, (Profiler.new 100 0).exec 100 threeCalls ieee.rnd = .ok p) ∧ (∀ t ∈ durations threeCalls, 0 ≤ t) ∧
    measured ieee threeCalls ≠ [] := by
  refine ⟨by show ((1 : ℝ) / 2) ^ 53 ≤ 1; norm_num, ieee_big, three_rep, ?_, ?_, by rw [three_measured]; simp⟩
  · obtain ⟨p, hp, -⟩ := three_ran
    exact ⟨p, hp⟩
  · simp [durations, recorded, sinceReset, threeCalls, isReset, entry, List.takeWhile]
    norm_num

end
end Mpc.Props
