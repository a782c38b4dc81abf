import Verif.Proofs.Stats

/-
C25 - C28: the execution statistics of a controller, for every history of `optimize` and `resetStats` calls.
-/
namespace Mpc.Props
open Mpc.Spec
noncomputable section

variable {big t0 : ℝ} {ops : List StatOp} {p : Profiler}

/-- three calls (the second leaves with an exception), a reset, two calls -/
def statSample : List StatOp :=
  [.optimize 0 3 (some .SUCCESS), .optimize 4 5 none, .optimize 5 9 (some .ERROR), .resetStats,
   .optimize 10 11 (some .SUCCESS), .optimize 12 15 (some .INFEASIBLE)]

theorem statSample_rep : Representable 100 statSample := by
  intro a b st h
  simp [statSample] at h
  rcases h with ⟨rfl, rfl, -⟩ | ⟨rfl, rfl, -⟩ | ⟨rfl, rfl, -⟩ | ⟨rfl, rfl, -⟩ | ⟨rfl, rfl, -⟩ <;> norm_num

theorem statSample_ok : ∃ p, (Profiler.new 100 0).exec 100 statSample = .ok p :=
  exec_ok _ statSample_rep (by simp [statSample, intMax])

/-- C25. Number, total, average, minimum and maximum are those of the durations recorded since the last reset. -/
theorem c25_statistics (hr : Representable big ops) (h : (Profiler.new big t0).exec big ops = .ok p) :
    p.stats.numberOfSolutions = (durations ops).length ∧ p.stats.totalSolutionTime = (durations ops).sum ∧
    (durations ops ≠ [] → p.stats.averageSolutionTime = mean (durations ops) ∧
      IsLeast {t | t ∈ durations ops} p.stats.minSolutionTime ∧ IsGreatest {t | t ∈ durations ops} p.stats.maxSolutionTime) ∧
    (durations ops = [] → p.stats.averageSolutionTime = 0 ∧ p.stats.standardDeviation = 0) := by
  have hi := exec_statInv ops hr h
  unfold durations
  refine ⟨by simp [hi.num], hi.total, fun hne => ?_, fun he => ?_⟩
  · have hne' : recorded ops ≠ [] := by simpa using hne
    refine ⟨hi.avg, ⟨?_, fun t ht => hi.minLe t ht⟩, ?_, fun t ht => hi.maxLe t ht⟩
    · rcases hi.minMem with ⟨-, hm⟩ | ⟨hm, -⟩
      · exact hm
      · exact absurd hm hne'
    · rcases hi.maxMem with ⟨-, hm⟩ | ⟨hm, -⟩
      · exact hm
      · exact absurd hm hne'
  · refine ⟨?_, hi.std0 (by simpa using he)⟩
    rw [hi.avg, he]; simp [mean]

/-- C25. Counting never overflows within 2^31 - 2 calls. -/
theorem c25_no_overflow (hr : Representable big ops) (hl : ops.length < 2 ^ 31 - 1) :
    ∃ p, (Profiler.new big t0).exec big ops = .ok p := exec_ok ops hr hl

example : ∃ p, (Profiler.new 100 0).exec 100 statSample = .ok p ∧ durations statSample = [1, 3] := by
  obtain ⟨p, hp⟩ := statSample_ok
  refine ⟨p, hp, ?_⟩
  simp [durations, recorded, sinceReset, statSample, isReset, entry, List.takeWhile]; norm_num

/-- C26 as stated. -/
def C26Claim : Prop := ∀ (big t0 : ℝ) (ops : List StatOp) (p : Profiler), Representable big ops →
  (Profiler.new big t0).exec big ops = .ok p → 2 ≤ (durations ops).length → p.stats.standardDeviation = sampleStd (durations ops)

/-- C26 is violated: from the third solution on the quotient n/(n-1) is an integer division. -/
theorem c26_violated : ¬ C26Claim := by
  intro hc
  have hr : Representable 3 [.optimize 0 0 (some .SUCCESS), .optimize 0 0 (some .SUCCESS), .optimize 0 3 (some .SUCCESS)] := by
    intro a b st h
    simp at h
    rcases h with ⟨rfl, rfl, -⟩ | ⟨rfl, rfl, -⟩ <;> norm_num
  obtain ⟨p, hp⟩ := exec_ok (t0 := 0) _ hr (by simp [intMax])
  have h1 := hc _ _ _ _ hr hp (by simp [durations, recorded, sinceReset, isReset, entry, List.takeWhile])
  have hd : durations [.optimize 0 0 (some .SUCCESS), .optimize 0 0 (some .SUCCESS), .optimize 0 3 (some .SUCCESS)] = [0, 0, 3] := by
    simp [durations, recorded, sinceReset, isReset, entry, List.takeWhile]
  have hsq : squares [0, 0, 3] = 6 := by norm_num [squares, mean]
  have h2 : sampleStd [0, 0, 3] ^ 2 = 3 := by
    unfold sampleStd
    rw [hsq, Real.sq_sqrt] <;> norm_num
  -- the reported value
  have hr2 : Representable 3 [.optimize 0 0 (some .SUCCESS), .optimize 0 0 (some .SUCCESS)] := by
    intro a b st h
    simp at h
    rcases h with ⟨rfl, rfl, -⟩; norm_num
  have hs := exec_snoc (big := 3) [.optimize 0 0 (some .SUCCESS), .optimize 0 0 (some .SUCCESS)] (.optimize 0 3 (some .SUCCESS)) (.new 3 0)
  rw [show [StatOp.optimize 0 0 (some .SUCCESS), .optimize 0 0 (some .SUCCESS)] ++ [.optimize 0 3 (some .SUCCESS)] =
    [.optimize 0 0 (some .SUCCESS), .optimize 0 0 (some .SUCCESS), .optimize 0 3 (some .SUCCESS)] from rfl, hp] at hs
  obtain ⟨q, hq, hstep⟩ := (Exec.bind_eq_ok ..).1 hs.symm
  have hi := exec_statInv _ hr2 hq
  have hrec : recorded [.optimize 0 0 (some .SUCCESS), .optimize 0 0 (some .SUCCESS)] = [(.SUCCESS, 0), (.SUCCESS, 0)] := by
    simp [recorded, sinceReset, isReset, entry, List.takeWhile]
  rw [hrec] at hi
  have hsd : q.stats.standardDeviation = 0 := by
    have := hi.stdEq (by simp) (by simp)
    have h0 : squares [0, 0] = 0 := by norm_num [squares, mean]
    simp only [List.length_cons, List.length_nil, List.map_cons, List.map_nil, h0] at this
    norm_num at this
    exact this
  simp only [Profiler.step, Profiler.solutionEnd, Profiler.solutionStart, Exec.bind_eq_ok] at hstep
  obtain ⟨⟨p', t⟩, ⟨s1, e1, s2, e2, e3⟩, e4⟩ := hstep
  cases e3
  cases e4
  have h3 : s2.standardDeviation ^ 2 = 2 := by
    rw [add_spec e2, countStatus_spec e1]
    have hn : q.stats.numberOfSolutions = 2 := by simp [hi.num]
    have ha : q.stats.averageSolutionTime = 0 := by rw [hi.avg]; simp [mean]
    simp only [hn, ha, hsd]
    have := nextStd_sq (n := 2) (by simp) (3 - 0) ((3 - 0 + ((2 : Nat) : ℝ) * 0) / (((2 : Nat) : ℝ) + 1)) 0
    norm_num at this ⊢
    linarith
  simp only at h1
  rw [hd] at h1
  rw [h1, h2] at h3
  norm_num at h3

/-- C26, partial: it is right for one or two solutions. -/
theorem c26_two_partial (hr : Representable big ops) (h : (Profiler.new big t0).exec big ops = .ok p)
    (hl : (durations ops).length = 2) : p.stats.standardDeviation = sampleStd (durations ops) := by
  have hi := exec_statInv ops hr h
  have hl' : (recorded ops).length = 2 := by simpa [durations] using hl
  have := hi.stdEq (by intro h0; simp [h0] at hl') (by omega)
  unfold sampleStd
  rw [hl]
  rw [hl'] at this
  norm_num at this ⊢
  rw [← Real.sqrt_sq hi.stdPos, this]
  rfl

/-- C26, partial: for every number of solutions the reported value is never too large and at least sqrt(2/3) of the
sample standard deviation. -/
theorem c26_bounds_partial (hr : Representable big ops) (h : (Profiler.new big t0).exec big ops = .ok p)
    (hl : 2 ≤ (durations ops).length) : p.stats.standardDeviation ≤ sampleStd (durations ops) ∧
      Real.sqrt (2 / 3) * sampleStd (durations ops) ≤ p.stats.standardDeviation := by
  have hi := exec_statInv ops hr h
  have hl' : 2 ≤ (recorded ops).length := by simpa [durations] using hl
  have hne : recorded ops ≠ [] := by intro h0; simp [h0] at hl'
  have h1 := hi.stdLe hne
  have h2 := hi.stdGe hne
  have hlen : (durations ops).length = (recorded ops).length := by simp [durations]
  have hp : (0 : ℝ) < ((recorded ops).length : ℝ) - 1 := by
    have : (2 : ℝ) ≤ ((recorded ops).length : ℝ) := by exact_mod_cast hl'
    linarith
  unfold sampleStd
  rw [hlen]
  constructor
  · apply Real.le_sqrt_of_sq_le
    rw [le_div_iff₀ hp]
    unfold durations
    linarith
  · rw [← Real.sqrt_mul (by norm_num)]
    apply Real.sqrt_le_iff.2 ⟨hi.stdPos, ?_⟩
    rw [← mul_div_assoc, div_le_iff₀ hp]
    unfold durations
    linarith

/-- C26, partial: it is right when all durations are equal. -/
theorem c26_constant_partial (hr : Representable big ops) (h : (Profiler.new big t0).exec big ops = .ok p)
    (hl : 2 ≤ (durations ops).length) {t : ℝ} (hc : ∀ u ∈ durations ops, u = t) : p.stats.standardDeviation = 0 ∧
    sampleStd (durations ops) = 0 := by
  have h1 := c26_bounds_partial hr h hl
  have h0 : sampleStd (durations ops) = 0 := by
    have hm : mean (durations ops) = t := by
      unfold mean
      rw [List.eq_replicate_iff.2 ⟨rfl, hc⟩, List.sum_replicate, List.length_replicate, nsmul_eq_mul]
      have : ((durations ops).length : ℝ) ≠ 0 := by
        have : (2 : ℝ) ≤ ((durations ops).length : ℝ) := by exact_mod_cast hl
        linarith
      field_simp
    have : squares (durations ops) = 0 := by
      unfold squares
      rw [hm]
      apply List.sum_eq_zero
      simp only [List.mem_map]
      rintro _ ⟨u, hu, rfl⟩
      rw [hc u hu]; ring
    unfold sampleStd
    rw [this]; simp
  rw [h0] at h1
  exact ⟨le_antisymm h1.1 (by simpa using h1.2), h0⟩

example : ∃ p, (Profiler.new 100 0).exec 100 statSample = .ok p ∧ 2 ≤ (durations statSample).length := by
  obtain ⟨p, hp⟩ := statSample_ok
  refine ⟨p, hp, ?_⟩
  simp [durations, recorded, sinceReset, statSample, isReset, entry, List.takeWhile]

/-- number of solutions with a status since the last reset -/
def countOf (ops : List StatOp) (st : ResultStatus) : Nat := ((recorded ops).filter fun q => q.1 = st).length

theorem count_eq_countOf (ops : List StatOp) (st : ResultStatus) : ((recorded ops).map Prod.fst).count st = countOf ops st := by
  unfold countOf
  rw [List.count_eq_length_filter, List.filter_map, List.length_map]
  congr 1

theorem counts_sum (l : List ResultStatus) :
    l.count .SUCCESS + l.count .MAX_ITERATION + l.count .INFEASIBLE + l.count .ERROR + l.count .UNKNOWN = l.length := by
  induction l with
  | nil => rfl
  | cons s l ih =>
    simp only [List.count_cons, List.length_cons]
    cases s <;> simp <;> omega

/-- C27. The histogram shows, for exactly the statuses that occurred, how often they occurred. -/
theorem c27_histogram (hr : Representable big ops) (h : (Profiler.new big t0).exec big ops = .ok p) :
    (∀ st c, p.stats.solutionsStates st = some c ↔ (0 < c ∧ c = countOf ops st)) ∧
    countOf ops .SUCCESS + countOf ops .MAX_ITERATION + countOf ops .INFEASIBLE + countOf ops .ERROR + countOf ops .UNKNOWN
      = p.stats.numberOfSolutions := by
  have hi := exec_statInv ops hr h
  constructor
  · intro st c
    rw [hi.states, count_eq_countOf]
    split_ifs with h0
    · simp [h0]; omega
    · simp only [Option.some.injEq]
      constructor
      · rintro rfl; omega
      · rintro ⟨-, rfl⟩; rfl
  · simp only [← count_eq_countOf]
    rw [counts_sum, List.length_map, hi.num]

/-- C27. Each printed percentage is the share of its status, and they add to one hundred. -/
theorem c27_percentages (hr : Representable big ops) (h : (Profiler.new big t0).exec big ops = .ok p) :
    (∀ st v, (st, v) ∈ p.stats.percentages ↔
      (0 < countOf ops st ∧ v = (countOf ops st : ℝ) / (durations ops).length * 100)) ∧
    (durations ops ≠ [] → (p.stats.percentages.map Prod.snd).sum = 100) := by
  have hi := exec_statInv ops hr h
  have hlen : (durations ops).length = (recorded ops).length := by simp [durations]
  constructor
  · intro st v
    unfold SolutionStats.percentages
    rw [List.mem_filterMap]
    constructor
    · rintro ⟨st', -, h1⟩
      rw [hi.states, count_eq_countOf] at h1
      split_ifs at h1 with h0
      · cases h1
      · simp only [Option.map_some, Option.some.injEq, Prod.mk.injEq] at h1
        obtain ⟨rfl, rfl⟩ := h1
        rw [hi.num, hlen]
        exact ⟨Nat.pos_of_ne_zero h0, rfl⟩
    · rintro ⟨h0, rfl⟩
      refine ⟨st, by cases st <;> simp, ?_⟩
      rw [hi.states, count_eq_countOf, if_neg (by omega), hi.num, hlen]
      rfl
  · intro hne
    have hpos : ((recorded ops).length : ℝ) ≠ 0 := by
      have : (recorded ops).length ≠ 0 := by rw [← hlen]; simpa using hne
      exact_mod_cast this
    have key : ∀ L : List ResultStatus, ((L.filterMap fun st => (p.stats.solutionsStates st).map fun (c : Nat) =>
        (st, ((c : ℝ) / (p.stats.numberOfSolutions : ℝ)) * 100)).map Prod.snd).sum =
        (L.map fun st => ((((recorded ops).map Prod.fst).count st : Nat) : ℝ)).sum / (recorded ops).length * 100 := by
      intro L
      induction L with
      | nil => simp
      | cons st L ih =>
        rw [List.filterMap_cons, hi.states, hi.num]
        rw [hi.num] at ih
        split_ifs with h0
        · simp only [Option.map_none, List.map_cons, List.sum_cons, h0]
          rw [ih]; simp
        · simp only [Option.map_some, List.map_cons, List.sum_cons]
          rw [ih]; ring
    unfold SolutionStats.percentages
    rw [key]
    have hs := counts_sum ((recorded ops).map Prod.fst)
    rw [List.length_map] at hs
    have hs' : ((recorded ops).length : ℝ) = ((((recorded ops).map Prod.fst).count ResultStatus.SUCCESS : Nat) : ℝ) +
      ((((recorded ops).map Prod.fst).count ResultStatus.MAX_ITERATION : Nat) : ℝ) +
      ((((recorded ops).map Prod.fst).count ResultStatus.INFEASIBLE : Nat) : ℝ) +
      ((((recorded ops).map Prod.fst).count ResultStatus.ERROR : Nat) : ℝ) +
      ((((recorded ops).map Prod.fst).count ResultStatus.UNKNOWN : Nat) : ℝ) := by rw [← hs]; push_cast; ring
    simp only [List.map_cons, List.map_nil, List.sum_cons, List.sum_nil]
    field_simp
    rw [hs']; ring

example : ∃ p, (Profiler.new 100 0).exec 100 statSample = .ok p ∧ durations statSample ≠ [] ∧
    countOf statSample .SUCCESS = 1 ∧ countOf statSample .ERROR = 0 := by
  obtain ⟨p, hp⟩ := statSample_ok
  refine ⟨p, hp, ?_, ?_, ?_⟩ <;>
    simp [durations, countOf, recorded, sinceReset, statSample, isReset, entry, List.takeWhile]

/-- C28. After `resetStats` the statistics evolve as those of a new controller, faults included. -/
theorem c28_reset {t0' : ℝ} (ops1 ops2 : List StatOp) {p1 : Profiler} (h1 : (Profiler.new big t0).exec big ops1 = .ok p1) :
    ((Profiler.new big t0).exec big (ops1 ++ .resetStats :: ops2)).map Profiler.stats =
      ((Profiler.new big t0').exec big ops2).map Profiler.stats := by
  have happ : ∀ (l : List StatOp) (p q : Profiler), p.exec big l = .ok q → ∀ l', p.exec big (l ++ l') = q.exec big l' := by
    intro l
    induction l with
    | nil => intro p q h l'; cases h; rfl
    | cons o l ih =>
      intro p q h l'
      simp only [Profiler.exec, Exec.bind_eq_ok] at h
      obtain ⟨r, e1, e2⟩ := h
      simp only [List.cons_append, Profiler.exec, e1, Exec.ok_bind]
      exact ih r q e2 l'
  have hst : ∀ (l : List StatOp) (p q : Profiler), p.stats = q.stats →
      (p.exec big l).map Profiler.stats = (q.exec big l).map Profiler.stats := by
    intro l
    induction l with
    | nil => intro p q h; simp [Profiler.exec, h, Except.map]
    | cons o l ih =>
      intro p q h
      simp only [Profiler.exec]
      cases o with
      | resetStats =>
        simp only [Profiler.step, Exec.ok_bind]
        exact ih _ _ rfl
      | optimize a b st =>
        cases st with
        | none =>
          simp only [Profiler.step, Exec.ok_bind]
          exact ih _ _ h
        | some st =>
          simp only [Profiler.step, Profiler.solutionStart, Profiler.solutionEnd, h]
  rw [happ _ _ _ h1]
  simp only [Profiler.exec, Profiler.step, Exec.ok_bind]
  exact hst _ _ _ rfl

/-- C28. The statistics right after `resetStats` are those of a new controller. -/
theorem c28_clear (p : Profiler) : ∃ q, p.step big .resetStats = .ok q ∧ q.stats = (Profiler.new big t0).stats := ⟨_, rfl, rfl⟩

example : ∃ p1, (Profiler.new 100 0).exec 100 [.optimize 0 3 (some .SUCCESS)] = .ok p1 ∧ p1.stats.numberOfSolutions = 1 := by
  have hr : Representable 100 [.optimize 0 3 (some .SUCCESS)] := by
    intro a b st h
    simp at h
    obtain ⟨rfl, rfl, -⟩ := h; norm_num
  obtain ⟨p, hp⟩ := exec_ok (t0 := 0) _ hr (by simp [intMax])
  exact ⟨p, hp, (c25_statistics hr hp).1.trans (by simp [durations, recorded, sinceReset, isReset, entry, List.takeWhile])⟩

end
end Mpc.Props
