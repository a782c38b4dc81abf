import Verif.Spec.Stats

/- Helper lemmas for the statistics. -/
namespace Mpc
open Mpc.Spec

noncomputable section

theorem squares_eq (l : List ℝ) (h : l ≠ []) : squares l = (l.map fun t => t ^ 2).sum - l.sum ^ 2 / l.length := by
  have hn : (l.length : ℝ) ≠ 0 := by
    simpa using h
  have key : ∀ (a : ℝ) (l : List ℝ), (l.map fun t => (t - a) ^ 2).sum
      = (l.map fun t => t ^ 2).sum - 2 * a * l.sum + l.length * a ^ 2 := by
    intro a l
    induction l with
    | nil => simp
    | cons t l ih => simp only [List.map_cons, List.sum_cons, ih, List.length_cons]; push_cast; ring
  unfold squares
  rw [key, mean]
  field_simp
  ring

theorem squares_nonneg (l : List ℝ) : 0 ≤ squares l :=
  List.sum_nonneg (by simp only [List.mem_map]; rintro _ ⟨t, _, rfl⟩; positivity)

theorem squares_single (t : ℝ) : squares [t] = 0 := by
  simp [squares, mean]

/-- adding one value -/
theorem squares_snoc (l : List ℝ) (t : ℝ) (h : l ≠ []) :
    squares (l ++ [t]) = squares l + ((l.length : ℝ) + 1) / l.length * (t - mean (l ++ [t])) ^ 2 := by
  have hn : (l.length : ℝ) ≠ 0 := by simpa using h
  have hn' : (l.length : ℝ) + 1 ≠ 0 := by positivity
  rw [squares_eq _ h, squares_eq _ (by simp), mean]
  simp only [List.map_append, List.sum_append, List.map_cons, List.map_nil, List.sum_cons, List.sum_nil, add_zero,
    List.length_append, List.length_cons, List.length_nil, zero_add]
  push_cast
  field_simp
  ring

theorem recorded_snoc (ops : List StatOp) (op : StatOp) : recorded (ops ++ [op]) =
    if isReset op then [] else recorded ops ++ (entry op).toList := by
  unfold recorded sinceReset
  rw [List.reverse_append, List.reverse_singleton, List.singleton_append, List.takeWhile_cons]
  by_cases h : isReset op = true
  · simp [h]
  · simp only [h, Bool.not_false, if_true, Bool.false_eq_true, if_false, List.reverse_cons, List.filterMap_append]
    cases he : entry op <;> simp [he]

theorem exec_snoc_rnd {big : ℝ} (rnd : ℝ → ℝ) (ops : List StatOp) (op : StatOp) : ∀ (p : Profiler),
    p.exec big (ops ++ [op]) rnd = (p.exec big ops rnd >>= fun q => q.step big op rnd) := by
  induction ops with
  | nil =>
    intro p
    simp only [List.nil_append, Profiler.exec, Exec.ok_bind]
    cases p.step big op rnd <;> rfl
  | cons o ops ih =>
    intro p
    simp only [List.cons_append, Profiler.exec]
    cases p.step big o rnd with
    | error e => rfl
    | ok q => exact ih q

theorem exec_snoc {big : ℝ} (ops : List StatOp) (op : StatOp) (p : Profiler) :
    p.exec big (ops ++ [op]) = (p.exec big ops >>= fun q => q.step big op) := exec_snoc_rnd id ops op p

/-- what is known about the statistics -/
structure StatInv (big : ℝ) (s : SolutionStats) (l : List (ResultStatus × ℝ)) : Prop where
  num : s.numberOfSolutions = l.length
  total : s.totalSolutionTime = (l.map Prod.snd).sum
  avg : s.averageSolutionTime = mean (l.map Prod.snd)
  minLe : ∀ t ∈ l.map Prod.snd, s.minSolutionTime ≤ t
  minMem : (l ≠ [] ∧ s.minSolutionTime ∈ l.map Prod.snd) ∨ (l = [] ∧ s.minSolutionTime = big)
  maxLe : ∀ t ∈ l.map Prod.snd, t ≤ s.maxSolutionTime
  maxMem : (l ≠ [] ∧ s.maxSolutionTime ∈ l.map Prod.snd) ∨ (l = [] ∧ s.maxSolutionTime = -big)
  states : ∀ st, s.solutionsStates st = if (l.map Prod.fst).count st = 0 then none else some ((l.map Prod.fst).count st)
  stdPos : 0 ≤ s.standardDeviation
  std0 : l = [] → s.standardDeviation = 0
  stdLe : l ≠ [] → ((l.length : ℝ) - 1) * s.standardDeviation ^ 2 ≤ squares (l.map Prod.snd)
  stdGe : l ≠ [] → 2 / 3 * squares (l.map Prod.snd) ≤ ((l.length : ℝ) - 1) * s.standardDeviation ^ 2
  stdEq : l ≠ [] → l.length ≤ 2 → ((l.length : ℝ) - 1) * s.standardDeviation ^ 2 = squares (l.map Prod.snd)

theorem statInv_clear (big : ℝ) : StatInv big (.clear big) [] := by
  constructor <;> simp [SolutionStats.clear, mean]

/-- the standard deviation after one more value -/
def nextStd (n : Nat) (t av sd : ℝ) : ℝ :=
  if n = 0 then 0 else Real.sqrt (((((n + 1 : Nat) : ℝ) - 2) * sd ^ 2 + (((n + 1) / n : Nat) : ℝ) * (t - av) ^ 2) / (n : ℝ))

theorem add_spec {s s' : SolutionStats} {t : ℝ} (h : s.addSolutionTime t = .ok s') :
    s' = { minSolutionTime := min t s.minSolutionTime, maxSolutionTime := max t s.maxSolutionTime,
           averageSolutionTime := (t + s.numberOfSolutions * s.averageSolutionTime) / (s.numberOfSolutions + 1 : ℝ),
           totalSolutionTime := s.totalSolutionTime + t, solutionsStates := s.solutionsStates,
           standardDeviation := nextStd s.numberOfSolutions t
             ((t + s.numberOfSolutions * s.averageSolutionTime) / (s.numberOfSolutions + 1 : ℝ)) s.standardDeviation,
           numberOfSolutions := s.numberOfSolutions + 1 } := by
  obtain ⟨mn, mx, av, tot, sts, sd, n⟩ := s
  simp only [SolutionStats.addSolutionTime, incr, id_eq] at h
  by_cases hl : n < intMax
  swap
  · rw [if_neg hl] at h; cases h
  rw [if_pos hl] at h
  simp only [Exec.ok_bind] at h
  rw [if_pos (Nat.succ_pos _)] at h
  have ha : ∀ av : ℝ, (1 / (((n + 1 : Nat)) : ℝ)) * (t + ((((n + 1 : Nat)) : ℝ) - 1) * av) = (t + n * av) / (n + 1 : ℝ) := by
    intro av; push_cast; ring
  have e1 : min t mn = if t < mn then t else mn := by
    split_ifs with g
    · exact min_eq_left g.le
    · exact min_eq_right (not_lt.1 g)
  have e2 : max t mx = if t > mx then t else mx := by
    split_ifs with g
    · exact max_eq_left (le_of_lt g)
    · exact max_eq_right (not_lt.1 g)
  by_cases h1 : t < mn <;> by_cases h2 : t > mx <;> by_cases h3 : n = 0
  all_goals
    first
    | (have h3' : n + 1 = 1 := by omega)
    | (have h3' : ¬ n + 1 = 1 := by omega)
    simp only [h1, h2, h3', if_true, if_false] at h
    cases h
    simp only [e1, e2, h1, h2, if_true, if_false, nextStd, h3, Nat.add_sub_cancel, ha]
    try simp

theorem add_ok {s : SolutionStats} (t : ℝ) (h : s.numberOfSolutions < intMax) : ∃ s', s.addSolutionTime t = .ok s' := by
  unfold SolutionStats.addSolutionTime incr
  simp only [h, if_true, Exec.ok_bind]
  split_ifs <;> exact ⟨_, rfl⟩

theorem nextStd_nonneg (n : Nat) (t av sd : ℝ) : 0 ≤ nextStd n t av sd := by
  unfold nextStd
  split_ifs
  · exact le_refl _
  · exact Real.sqrt_nonneg _

theorem nextStd_sq {n : Nat} (hn : n ≠ 0) (t av sd : ℝ) :
    (n : ℝ) * nextStd n t av sd ^ 2 = ((n : ℝ) - 1) * sd ^ 2 + (((n + 1) / n : Nat) : ℝ) * (t - av) ^ 2 := by
  have h1 : (1 : ℝ) ≤ n := by exact_mod_cast Nat.one_le_iff_ne_zero.2 hn
  have h2 : (n : ℝ) ≠ 0 := by positivity
  unfold nextStd
  rw [if_neg hn, Real.sq_sqrt]
  · push_cast
    field_simp
    ring
  · have : (0 : ℝ) ≤ (((n + 1) / n : Nat) : ℝ) := by positivity
    have h3 : (0 : ℝ) ≤ ((n + 1 : Nat) : ℝ) - 2 := by push_cast; linarith
    positivity

/-- the integer quotient of line 224 -/
theorem quot_eq {n : Nat} (hn : n ≠ 0) : (n + 1) / n = if n = 1 then 2 else 1 := by
  split_ifs with h
  · subst h; rfl
  · exact Nat.div_eq_of_lt_le (by omega) (by omega)

theorem mean_snoc (l : List ℝ) (t : ℝ) : (t + l.length * mean l) / (l.length + 1 : ℝ) = mean (l ++ [t]) := by
  unfold mean
  rw [List.sum_append, List.length_append, List.sum_singleton, List.length_singleton]
  push_cast
  by_cases h : l = []
  · subst h; simp
  · have hn : (l.length : ℝ) ≠ 0 := by simpa using h
    field_simp
    ring

theorem countStatus_spec {s s' : SolutionStats} {st : ResultStatus} (h : s.countStatus st = .ok s') :
    s' = { s with solutionsStates := fun t => if t = st then some ((s.solutionsStates st).getD 0 + 1) else s.solutionsStates t } := by
  simp only [SolutionStats.countStatus, incr] at h
  split_ifs at h
  · cases h; rfl
  · cases h

theorem StatInv.add {big : ℝ} {s s' s'' : SolutionStats} {l : List (ResultStatus × ℝ)} (h : StatInv big s l)
    {st : ResultStatus} {t : ℝ} (ht : |t| ≤ big) (h1 : s.countStatus st = .ok s') (h2 : s'.addSolutionTime t = .ok s'') :
    StatInv big s'' (l ++ [(st, t)]) := by
  have hn := h.num
  have hS : (l ++ [(st, t)]).map Prod.snd = l.map Prod.snd ++ [t] := by simp
  have hL : (l.map Prod.snd).length = l.length := by simp
  have e2 := add_spec h2
  rw [countStatus_spec h1] at e2
  simp only [hn] at e2
  have hav : (t + l.length * s.averageSolutionTime) / (l.length + 1 : ℝ) = mean (l.map Prod.snd ++ [t]) := by
    rw [h.avg, ← hL, mean_snoc]
  rw [hav] at e2
  subst e2
  obtain ⟨ht1, ht2⟩ := abs_le.1 ht
  have hsq : l ≠ [] → (l.length : ℝ) * nextStd l.length t (mean (l.map Prod.snd ++ [t])) s.standardDeviation ^ 2
      = ((l.length : ℝ) - 1) * s.standardDeviation ^ 2 + (((l.length + 1) / l.length : Nat) : ℝ) * (t - mean (l.map Prod.snd ++ [t])) ^ 2 :=
    fun hl => nextStd_sq (by simpa using hl) _ _ _
  have hqs : l ≠ [] → squares (l.map Prod.snd ++ [t]) = squares (l.map Prod.snd) +
      ((l.length : ℝ) + 1) / l.length * (t - mean (l.map Prod.snd ++ [t])) ^ 2 := fun hl => by
    rw [squares_snoc _ _ (by simpa using hl), hL]
  have hcast : (((l ++ [(st, t)]).length : Nat) : ℝ) - 1 = l.length := by simp
  have hlpos : l ≠ [] → (1 : ℝ) ≤ l.length := fun hl => by
    exact_mod_cast List.length_pos_iff.2 hl
  have hw : l ≠ [] → (((l.length + 1) / l.length : Nat) : ℝ) ≤ ((l.length : ℝ) + 1) / l.length ∧
      2 / 3 * (((l.length : ℝ) + 1) / l.length) ≤ (((l.length + 1) / l.length : Nat) : ℝ) ∧
      (l.length = 1 → (((l.length + 1) / l.length : Nat) : ℝ) = ((l.length : ℝ) + 1) / l.length) := fun hl => by
    have hp := hlpos hl
    have hp' : (0 : ℝ) < l.length := by linarith
    rw [quot_eq (by simpa using hl)]
    by_cases h1 : l.length = 1
    · rw [if_pos h1, h1]; norm_num
    · rw [if_neg h1]
      have h2 : (2 : ℝ) ≤ l.length := by
        have := List.length_pos_iff.2 hl
        exact_mod_cast (show 2 ≤ l.length by omega)
      refine ⟨?_, ?_, fun h => absurd h h1⟩
      · rw [le_div_iff₀ hp']; push_cast; linarith
      · rw [← mul_div_assoc, div_le_iff₀ hp']; push_cast; linarith
  have hsd0 : l = [] → nextStd l.length t (mean (l.map Prod.snd ++ [t])) s.standardDeviation = 0 := fun hl => by
    subst hl; rfl
  constructor
  · simp
  · simp [h.total]
  · rw [hS]
  · rw [hS]
    intro u hu
    rcases List.mem_append.1 hu with hu | hu
    · exact (min_le_right _ _).trans (h.minLe u hu)
    · rw [List.mem_singleton.1 hu]; exact min_le_left _ _
  · left
    refine ⟨by simp, ?_⟩
    rw [hS]
    simp only
    rcases h.minMem with ⟨hl, hm⟩ | ⟨hl, hm⟩
    · rcases min_choice t s.minSolutionTime with e | e <;> rw [e]
      · simp
      · exact List.mem_append_left _ hm
    · rw [hm, min_eq_left ht2]; simp
  · rw [hS]
    intro u hu
    rcases List.mem_append.1 hu with hu | hu
    · exact (h.maxLe u hu).trans (le_max_right _ _)
    · rw [List.mem_singleton.1 hu]; exact le_max_left _ _
  · left
    refine ⟨by simp, ?_⟩
    rw [hS]
    simp only
    rcases h.maxMem with ⟨hl, hm⟩ | ⟨hl, hm⟩
    · rcases max_choice t s.maxSolutionTime with e | e <;> rw [e]
      · simp
      · exact List.mem_append_left _ hm
    · rw [hm, max_eq_left ht1]; simp
  · intro u
    simp only [List.map_append, List.map_cons, List.map_nil, List.count_append]
    by_cases hu : u = st
    · subst hu
      simp only [if_true, List.count_singleton_self]
      rw [if_neg (by omega), h.states]
      split_ifs with hc <;> simp [hc]
    · simp only [if_neg hu]
      rw [h.states, List.count_singleton, if_neg (show ¬ (st == u) = true by simpa using fun e : st = u => hu e.symm), Nat.add_zero]
  · exact nextStd_nonneg _ _ _ _
  · intro hl; simp at hl
  · intro _
    rw [hcast, hS]
    by_cases hl : l = []
    · rw [hsd0 hl]; subst hl; simp [squares_single]
    · rw [hsq hl, hqs hl]
      have := h.stdLe hl
      have := mul_le_mul_of_nonneg_right (hw hl).1 (sq_nonneg (t - mean (l.map Prod.snd ++ [t])))
      linarith
  · intro _
    rw [hcast, hS]
    by_cases hl : l = []
    · rw [hsd0 hl]; subst hl; simp [squares_single]
    · rw [hsq hl, hqs hl]
      have := h.stdGe hl
      have := mul_le_mul_of_nonneg_right (hw hl).2.1 (sq_nonneg (t - mean (l.map Prod.snd ++ [t])))
      linarith
  · intro _ hle
    rw [hcast, hS]
    by_cases hl : l = []
    · rw [hsd0 hl]; subst hl; simp [squares_single]
    · have h1 : l.length = 1 := by
        have := List.length_pos_iff.2 hl
        simp at hle; omega
      rw [hsq hl, hqs hl, (hw hl).2.2 h1, h.stdEq hl (by omega)]

theorem exec_statInv {big t0 : ℝ} (ops : List StatOp) (hr : Representable big ops) {p : Profiler}
    (h : (Profiler.new big t0).exec big ops = .ok p) : StatInv big p.stats (recorded ops) := by
  induction ops using List.reverseRecOn generalizing p with
  | nil => cases h; exact statInv_clear big
  | append_singleton ops op ih =>
    rw [exec_snoc, Exec.bind_eq_ok] at h
    obtain ⟨q, h1, h2⟩ := h
    have hi := ih (fun a b c hm => hr a b c (List.mem_append_left _ hm)) h1
    rw [recorded_snoc]
    cases op with
    | resetStats => cases h2; exact statInv_clear big
    | optimize a b st =>
      cases st with
      | none => cases h2; simpa [isReset, entry, Profiler.solutionStart] using hi
      | some st =>
        simp only [Profiler.step, Profiler.solutionEnd, Profiler.solutionStart, Exec.bind_eq_ok] at h2
        obtain ⟨⟨p', t⟩, ⟨s1, e1, s2, e2, e3⟩, e4⟩ := h2
        cases e3
        cases e4
        exact hi.add (hr a b (some st) (by simp)) e1 e2

/-- a history with fewer than 2^31 - 1 calls does not overflow -/
theorem exec_ok {big t0 : ℝ} (ops : List StatOp) (hr : Representable big ops) (hl : ops.length < intMax) :
    ∃ p, (Profiler.new big t0).exec big ops = .ok p := by
  induction ops using List.reverseRecOn with
  | nil => exact ⟨_, rfl⟩
  | append_singleton ops op ih =>
    obtain ⟨q, hq⟩ := ih (fun a b c hm => hr a b c (List.mem_append_left _ hm)) (by simp at hl; omega)
    have hi := exec_statInv ops (fun a b c hm => hr a b c (List.mem_append_left _ hm)) hq
    rw [exec_snoc, hq, Exec.ok_bind]
    cases op with
    | resetStats => exact ⟨_, rfl⟩
    | optimize a b st =>
      cases st with
      | none => exact ⟨_, rfl⟩
      | some st =>
        have hrec : (recorded ops).length ≤ ops.length := by
          unfold recorded sinceReset
          refine (List.length_filterMap_le _ _).trans ?_
          rw [List.length_reverse]
          exact (List.takeWhile_sublist _).length_le.trans (by simp)
        have hlen : ops.length + 1 < intMax := by simpa using hl
        have hc : (q.stats.solutionsStates st).getD 0 < intMax := by
          rw [hi.states]
          split_ifs
          · simp [intMax]
          · have := List.count_le_length (l := (recorded ops).map Prod.fst) (a := st)
            rw [List.length_map] at this
            simp only [Option.getD_some]
            omega
        have hn : q.stats.numberOfSolutions < intMax := by rw [hi.num]; omega
        obtain ⟨s1, e1⟩ : ∃ s1, q.stats.countStatus st = .ok s1 := by
          unfold SolutionStats.countStatus incr
          rw [if_pos hc]
          exact ⟨_, rfl⟩
        obtain ⟨s2, e2⟩ := add_ok (s := s1) (b - a) (by rw [countStatus_spec e1]; exact hn)
        simp only [Profiler.step, Profiler.solutionEnd, Profiler.solutionStart, e1, Exec.ok_bind, id_eq, e2]
        exact ⟨_, rfl⟩

end
end Mpc
