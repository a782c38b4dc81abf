import Mathlib.Analysis.Normed.Algebra.MatrixExponential
import Mathlib.LinearAlgebra.Matrix.Notation
import Mathlib.Tactic.Linarith
import Mathlib.Tactic.FieldSimp
import Mathlib.Tactic.Ring
import Verif.Model.Print
import Verif.Props.Logging
import Verif.Props.Statistics
import Verif.Props.Discretize

/-
C122, third part: what test_logger.cpp, test_profiler.cpp and test_utils.cpp assert on a few values, for all values.
-/
namespace Mpc
open Mpc.Spec

/-! ### one message -/

theorem Logger.exec_append (l : Logger) (a b : List Logger.Op) : l.exec (a ++ b) = (l.exec a >>= fun q => q.exec b) := by
  induction a generalizing l with
  | nil => rfl
  | cons o a ih =>
    simp only [List.cons_append, Logger.exec]
    cases l.step o with
    | error e => rfl
    | ok q => exact ih q

theorem Logger.write_ok {l : Logger} {i : Nat} (h : l.os = some i) (x : String) : ∃ q, l.write x = .ok q ∧ q.os = some i := by
  unfold Logger.write
  rw [h]
  exact ⟨_, rfl, rfl⟩

theorem Logger.message {l : Logger} {i : Nat} (h : l.os = some i) (t : LogType) (x : String) :
    ∃ q, l.exec [.log t, .stream x] = .ok q ∧ q.os = some i ∧ q.pfx = l.pfx ∧ q.thresholdLevel = l.thresholdLevel ∧
      (∀ j, q.text j = if j = i ∧ visible l.thresholdLevel t = true then l.text j ++ (tag l.pfx ++ x) else l.text j) := by
  have h1 : ∃ q, l.log t = .ok q := by
    unfold Logger.log
    simp only
    split_ifs
    · obtain ⟨q, e, hq⟩ := Logger.write_ok (l := { l with currentType := t }) h "[MPC++"
      simp only [e, Exec.ok_bind]
      split_ifs
      · obtain ⟨q2, e2, hq2⟩ := Logger.write_ok hq " "
        simp only [e2, Exec.ok_bind]
        obtain ⟨q3, e3, hq3⟩ := Logger.write_ok hq2 q2.pfx
        simp only [e3, Exec.ok_bind]
        obtain ⟨q4, e4, -⟩ := Logger.write_ok hq3 "] "
        exact ⟨q4, e4⟩
      · obtain ⟨q2, e2, -⟩ := Logger.write_ok hq "] "
        exact ⟨q2, e2⟩
    · exact ⟨_, rfl⟩
  obtain ⟨q, e⟩ := h1
  have e1 := log_text e
  have h2 : ∃ r, q.stream x = .ok r := by
    unfold Logger.stream
    split_ifs
    · have hq : q.os = some i := by rw [e1]; exact h
      obtain ⟨r, er, -⟩ := Logger.write_ok hq x
      exact ⟨r, er⟩
    · exact ⟨_, rfl⟩
  obtain ⟨r, er⟩ := h2
  have e2 := stream_text er
  refine ⟨r, ?_, ?_, ?_, ?_, fun j => ?_⟩
  · simp only [Logger.exec, Logger.step, e, er, Exec.ok_bind]
  · rw [e2, e1]; exact h
  · rw [e2, e1]
  · rw [e2, e1]
  · rw [e2, e1]
    simp only [h, Option.some.injEq]
    by_cases hj : j = i
    · subst hj
      by_cases hv : visible l.thresholdLevel t = true <;> simp [hv, String.append_assoc]
    · simp [hj, Ne.symm hj]

namespace Props

/-- C122 (test_logger.cpp:8-68). Whatever the logger went through before, whatever its prefix and whatever the three texts:
after choosing a stream and a level, a detail, an information and an error message append to that stream exactly the ones at or
above the level, each with the tag in front, and nothing to any other stream. -/
theorem c122_log_levels (l : Logger) (i : Nat) (v : LogLevel) (a b c : String) :
    ∃ q, l.exec [.setStream (some i), .setLevel v, .log .DETAIL, .stream a, .log .INFO, .stream b, .log .ERROR, .stream c] = .ok q ∧
      q.text i = l.text i ++ (match v with
        | .DEEP => tag l.pfx ++ a ++ (tag l.pfx ++ b) ++ (tag l.pfx ++ c)
        | .NORMAL => tag l.pfx ++ b ++ (tag l.pfx ++ c)
        | .ALERT => tag l.pfx ++ c
        | .NONE => "") ∧
      ∀ j, j ≠ i → q.text j = l.text j := by
  have e0 : l.exec [.setStream (some i), .setLevel v] = .ok { l with os := some i, thresholdLevel := v } := rfl
  obtain ⟨q1, e1, o1, p1, v1, t1⟩ := Logger.message (l := { l with os := some i, thresholdLevel := v }) rfl .DETAIL a
  obtain ⟨q2, e2, o2, p2, v2, t2⟩ := Logger.message o1 .INFO b
  obtain ⟨q3, e3, o3, p3, v3, t3⟩ := Logger.message o2 .ERROR c
  refine ⟨q3, ?_, ?_, fun j hj => ?_⟩
  · have : ([.setStream (some i), .setLevel v, .log .DETAIL, .stream a, .log .INFO, .stream b, .log .ERROR, .stream c] : List Logger.Op) =
        [.setStream (some i), .setLevel v] ++ ([.log .DETAIL, .stream a] ++ ([.log .INFO, .stream b] ++ [.log .ERROR, .stream c])) := rfl
    rw [this, Logger.exec_append, e0, Exec.ok_bind, Logger.exec_append, e1, Exec.ok_bind, Logger.exec_append, e2, Exec.ok_bind, e3]
  · rw [t3, t2, t1, v2, v1, p2, p1]
    cases v <;> simp [visible, String.append_assoc]
  · rw [t3, t2, t1]
    simp [hj]

/-- C122 (test_logger.cpp:70-103). With any prefix and any text an information message at level NORMAL is shown with the prefix in
the tag, and with the bare tag when the prefix is empty. -/
theorem c122_log_prefix (l : Logger) (i : Nat) (s x : String) :
    ∃ q, l.exec [.setLevel .NORMAL, .setStream (some i), .setPrefix s, .log .INFO, .stream x] = .ok q ∧
      q.text i = l.text i ++ ((if s = "" then "[MPC++] " else "[MPC++ " ++ s ++ "] ") ++ x) := by
  obtain ⟨q, e, -, -, -, t⟩ :=
    Logger.message (l := { l with os := some i, thresholdLevel := .NORMAL, pfx := s }) rfl .INFO x
  refine ⟨q, ?_, ?_⟩
  · have : ([.setLevel .NORMAL, .setStream (some i), .setPrefix s, .log .INFO, .stream x] : List Logger.Op) =
        [.setLevel .NORMAL, .setStream (some i), .setPrefix s] ++ [.log .INFO, .stream x] := rfl
    rw [this, Logger.exec_append]
    exact e
  · rw [t]
    simp [visible, tag]

/-- C122 (test_logger.cpp:105-120). Whatever prefix and level were set, after a reset a detail message is not shown, and other
messages are shown with the bare tag, on the stream chosen before the reset. -/
theorem c122_log_reset (l : Logger) (i : Nat) (s : String) (v : LogLevel) (t : LogType) (x : String) :
    ∃ q, l.exec [.setStream (some i), .setPrefix s, .setLevel v, .reset, .log t, .stream x] = .ok q ∧
      q.text i = l.text i ++ (if t = .DETAIL then "" else "[MPC++] " ++ x) := by
  obtain ⟨q, e, -, -, -, tx⟩ :=
    Logger.message (l := { l with os := some i, thresholdLevel := .NORMAL, pfx := "" }) rfl t x
  refine ⟨q, ?_, ?_⟩
  · have : ([.setStream (some i), .setPrefix s, .setLevel v, .reset, .log t, .stream x] : List Logger.Op) =
        [.setStream (some i), .setPrefix s, .setLevel v, .reset] ++ [.log t, .stream x] := rfl
    rw [this, Logger.exec_append]
    exact e
  · rw [tx]
    cases t <;> simp [visible, tag]

/-- the assertions of test_logger.cpp: NONE, DEEP, NORMAL and ALERT on a fresh stream -/
example : (∃ q, Logger.new.exec [.setStream (some 1), .setLevel .NONE, .log .DETAIL, .stream "Detail message", .log .INFO,
      .stream "Info message", .log .ERROR, .stream "Error message"] = .ok q ∧ q.text 1 = "") ∧
    (∃ q, Logger.new.exec [.setStream (some 1), .setLevel .DEEP, .log .DETAIL, .stream "Detail message", .log .INFO,
      .stream "Info message", .log .ERROR, .stream "Error message"] = .ok q ∧
      q.text 1 = "[MPC++] Detail message[MPC++] Info message[MPC++] Error message") ∧
    (∃ q, Logger.new.exec [.setStream (some 1), .setLevel .ALERT, .log .DETAIL, .stream "Detail message", .log .INFO,
      .stream "Info message", .log .ERROR, .stream "Error message"] = .ok q ∧ q.text 1 = "[MPC++] Error message") := by
  refine ⟨?_, ?_, ?_⟩
  · obtain ⟨q, e, t, -⟩ := c122_log_levels Logger.new 1 .NONE "Detail message" "Info message" "Error message"
    exact ⟨q, e, t⟩
  · obtain ⟨q, e, t, -⟩ := c122_log_levels Logger.new 1 .DEEP "Detail message" "Info message" "Error message"
    refine ⟨q, e, t.trans ?_⟩
    simp [Logger.new, Logger.resetImpl, tag]
  · obtain ⟨q, e, t, -⟩ := c122_log_levels Logger.new 1 .ALERT "Detail message" "Info message" "Error message"
    refine ⟨q, e, t.trans ?_⟩
    simp [Logger.new, Logger.resetImpl, tag]

/-! ### the profiler -/

/-- C122 (test_profiler.cpp:12-35, 50-68, 90-101). New statistics, and whatever the statistics were the cleared ones: the extreme
values, zeros and no status. -/
theorem c122_stats_cleared (big t0 : ℝ) (p : Profiler) : ∃ q, p.step big .resetStats = .ok q ∧
    ∀ s, s = q.stats ∨ s = (Profiler.new big t0).stats → s.minSolutionTime = big ∧ s.maxSolutionTime = -big ∧
      s.averageSolutionTime = 0 ∧ s.totalSolutionTime = 0 ∧ s.standardDeviation = 0 ∧ s.numberOfSolutions = 0 ∧
      ∀ st, s.solutionsStates st = none := by
  refine ⟨_, rfl, ?_⟩
  rintro s (rfl | rfl) <;> exact ⟨rfl, rfl, rfl, rfl, rfl, rfl, fun _ => rfl⟩

/-- C122 (test_profiler.cpp:37-45). The names of the statuses. -/
theorem c122_status_names : ResultStatus.text .SUCCESS = "SUCCESS" ∧ ResultStatus.text .MAX_ITERATION = "MAX_ITERATION" ∧
    ResultStatus.text .INFEASIBLE = "INFEASIBLE" ∧ ResultStatus.text .ERROR = "ERROR" ∧ ResultStatus.text .UNKNOWN = "UNKNOWN" :=
  ⟨rfl, rfl, rfl, rfl, rfl⟩

/-- C122 (test_profiler.cpp:70-88). After one solution of any duration and status, minimum, maximum, average and total are the elapsed
time (so that the inequalities of the test hold), the deviation is zero, and the status was seen once and no other. This holds in
every arithmetic that represents 1 and the elapsed time. -/
theorem c122_one_solution (rnd : ℝ → ℝ) (big t0 start stop : ℝ) (st : ResultStatus)
    (h1 : rnd 1 = 1) (h0 : rnd 0 = 0) (hr : rnd (rnd (stop - start)) = rnd (stop - start)) (hb : |rnd (stop - start)| < big) :
    ∃ p : Profiler, ∃ elapsed, ((Profiler.new big t0).solutionStart start).solutionEnd stop st rnd = .ok (p, elapsed) ∧
      elapsed = rnd (stop - start) ∧ p.stats.minSolutionTime = elapsed ∧ p.stats.maxSolutionTime = elapsed ∧
      p.stats.averageSolutionTime = elapsed ∧ p.stats.totalSolutionTime = elapsed ∧ p.stats.standardDeviation = 0 ∧
      p.stats.numberOfSolutions = 1 ∧ ∀ s, p.stats.solutionsStates s = if s = st then some 1 else none := by
  obtain ⟨hl, hu⟩ := abs_lt.1 hb
  generalize he : rnd (stop - start) = e at *
  refine ⟨⟨start, ⟨e, e, e, e, fun s => if s = st then some 1 else none, 0, 1⟩⟩, e, ?_, rfl, rfl, rfl, rfl, rfl, rfl, rfl, fun s => rfl⟩
  simp only [Profiler.solutionEnd, Profiler.solutionStart, Profiler.new, SolutionStats.clear, SolutionStats.countStatus,
    SolutionStats.addSolutionTime, incr, intMax, Option.getD_none, he]
  simp [h1, h0, hr, hl, hu]
  rfl

/-- a solution of 0.1 seconds in exact arithmetic -/
example : ∃ p : Profiler, ∃ elapsed, ((Profiler.new 100 0).solutionStart 3).solutionEnd 3.1 .SUCCESS = .ok (p, elapsed) ∧
    elapsed = 0.1 ∧ p.stats.solutionsStates .SUCCESS = some 1 := by
  obtain ⟨p, e, h, he, -, -, -, -, -, -, hs⟩ := c122_one_solution id 100 0 3 3.1 .SUCCESS rfl rfl rfl (by norm_num [abs_lt])
  exact ⟨p, e, h, he.trans (by norm_num), by simp [hs]⟩

/-- C122 (test_profiler.cpp:103-126). After three solutions that lasted a, b and c: the number is three, the average is the
arithmetic mean, every status was seen as often as it occurred, and the deviation is the one of the recurrence with the integer
quotient 3 / 2 = 1. -/
theorem c122_three_solutions (big t0 s1 s2 s3 a b c : ℝ) (x y z : ResultStatus) (ha : |a| ≤ big) (hb : |b| ≤ big) (hc : |c| ≤ big) :
    ∃ p, (Profiler.new big t0).exec big [.optimize s1 (s1 + a) (some x), .optimize s2 (s2 + b) (some y),
        .optimize s3 (s3 + c) (some z)] = .ok p ∧
      p.stats.numberOfSolutions = 3 ∧ p.stats.averageSolutionTime = (a + b + c) / 3 ∧ p.stats.totalSolutionTime = a + b + c ∧
      p.stats.standardDeviation = Real.sqrt (((b - a) ^ 2 / 2 + (c - (a + b + c) / 3) ^ 2) / 2) ∧
      ∀ st k, p.stats.solutionsStates st = some k ↔ 0 < k ∧ k = [x, y, z].count st := by
  set ops : List StatOp := [.optimize s1 (s1 + a) (some x), .optimize s2 (s2 + b) (some y), .optimize s3 (s3 + c) (some z)] with hops
  have hr : Representable big ops := by
    intro u v st h
    simp only [hops, List.mem_cons, StatOp.optimize.injEq, List.not_mem_nil, or_false] at h
    rcases h with ⟨rfl, rfl, -⟩ | ⟨rfl, rfl, -⟩ | ⟨rfl, rfl, -⟩ <;> simpa
  obtain ⟨p, hp⟩ := exec_ok (t0 := t0) ops hr (by simp [hops, intMax])
  have hd : durations ops = [a, b, c] := by
    simp [durations, recorded, sinceReset, isReset, entry, List.takeWhile, hops]
  have h25 := c25_statistics hr hp
  refine ⟨p, hp, by simpa [hd] using h25.1, ?_, ?_, ?_, fun st k => ?_⟩
  · rw [(h25.2.2.1 (by simp [hd])).1, hd, mean]
    simp
    ring
  · rw [h25.2.1, hd]; simp; ring
  · have hsplit : ops = [.optimize s1 (s1 + a) (some x), .optimize s2 (s2 + b) (some y)] ++ [.optimize s3 (s3 + c) (some z)] := rfl
    rw [hsplit, exec_snoc, Exec.bind_eq_ok] at hp
    obtain ⟨q, hq, hz⟩ := hp
    have hr2 : Representable big [.optimize s1 (s1 + a) (some x), .optimize s2 (s2 + b) (some y)] := by
      intro u v st h
      exact hr u v st (by rw [hsplit]; exact List.mem_append_left _ h)
    have hrec : (recorded [.optimize s1 (s1 + a) (some x), .optimize s2 (s2 + b) (some y)]) = [(x, a), (y, b)] := by
      simp [recorded, sinceReset, isReset, entry, List.takeWhile]
    have hi := exec_statInv _ hr2 hq
    rw [hrec] at hi
    have h2 := hi.stdEq (by simp) (by simp)
    have hav := hi.avg
    have hn := hi.num
    simp [squares, mean] at h2 hav hn
    simp only [Profiler.step, Profiler.solutionEnd, Profiler.solutionStart, Exec.bind_eq_ok, SolutionStats.countStatus] at hz
    obtain ⟨r, ⟨s, ⟨k, -, e1⟩, s', e2, e3⟩, e4⟩ := hz
    cases e4
    cases e3
    cases e1
    have e5 := add_spec e2
    rw [e5]
    simp only [nextStd, hn, hav]
    norm_num
    congr 2
    have h3 : q.stats.standardDeviation ^ 2 = (b - a) ^ 2 / 2 := by
      have : q.stats.standardDeviation ^ 2 = (2 - 1) * q.stats.standardDeviation ^ 2 := by ring
      rw [this, h2]; ring
    rw [h3]
    ring
  · rw [(c27_histogram hr hp).1 st k]
    have : countOf ops st = [x, y, z].count st := by
      rw [← count_eq_countOf]
      simp [recorded, sinceReset, isReset, entry, List.takeWhile, hops]
    rw [this]

/-- the numbers of the test: the statuses, the average 0.2, and a deviation of √0.0075, which is within 0.01 of the asserted
0.081; the sample deviation of the three durations is 0.1, which is not (see C26) -/
example : ∃ p, (Profiler.new 100 0).exec 100 [.optimize 0 (0 + 0.1) (some .SUCCESS), .optimize 1 (1 + 0.2) (some .MAX_ITERATION),
      .optimize 2 (2 + 0.3) (some .SUCCESS)] = .ok p ∧ p.stats.solutionsStates .SUCCESS = some 2 ∧
    p.stats.solutionsStates .MAX_ITERATION = some 1 ∧ p.stats.averageSolutionTime = 0.2 ∧
    |p.stats.standardDeviation - 0.081| ≤ 0.01 ∧ sampleStd [0.1, 0.2, 0.3] = 0.1 ∧ ¬ |sampleStd [0.1, 0.2, 0.3] - 0.081| ≤ 0.01 := by
  obtain ⟨p, hp, -, ha, -, hs, hc⟩ := c122_three_solutions 100 0 0 1 2 0.1 0.2 0.3 .SUCCESS .MAX_ITERATION .SUCCESS
    (by norm_num [abs_le]) (by norm_num [abs_le]) (by norm_num [abs_le])
  have hd : sampleStd [0.1, 0.2, 0.3] = 0.1 := by
    rw [sampleStd, Real.sqrt_eq_iff_mul_self_eq_of_pos (by norm_num)]
    norm_num [squares, mean]
  refine ⟨p, hp, (hc _ _).2 ⟨by norm_num, by decide⟩, (hc _ _).2 ⟨by norm_num, by decide⟩, by rw [ha]; norm_num, ?_, hd, ?_⟩
  · rw [hs, abs_le]
    constructor
    · have : (0.0801 : ℝ) ≤ Real.sqrt (((0.2 - 0.1) ^ 2 / 2 + (0.3 - (0.1 + 0.2 + 0.3) / 3) ^ 2) / 2) :=
        Real.le_sqrt_of_sq_le (by norm_num)
      linarith
    · have : Real.sqrt (((0.2 - 0.1) ^ 2 / 2 + (0.3 - (0.1 + 0.2 + 0.3) / 3) ^ 2) / 2) ≤ (0.0901 : ℝ) :=
        Real.sqrt_le_iff.2 ⟨by norm_num, by norm_num⟩
      linarith
  · rw [hd]; norm_num [abs_le]

end Props

/-! ### the discretization -/

noncomputable section
open Matrix NormedSpace

theorem exp_of_pow_zero {n : Type} [Fintype n] [DecidableEq n] (M : Matrix n n ℝ) (k : Nat) (h : M ^ k = 0) :
    exp M = ∑ i ∈ Finset.range k, ((i.factorial : ℝ)⁻¹) • M ^ i := by
  rw [exp_eq_tsum ℝ]
  apply tsum_eq_sum
  intro i hi
  have : k ≤ i := by simpa using hi
  rw [pow_eq_zero_of_le this h, smul_zero]

theorem blocks_pow {n m : Type} [Fintype n] [DecidableEq n] [Fintype m] [DecidableEq m] (A : Matrix n n ℝ) (B : Matrix n m ℝ) (i : Nat) :
    (fromBlocks A B 0 (0 : Matrix m m ℝ)) ^ (i + 1) = fromBlocks (A ^ (i + 1)) (A ^ i * B) 0 0 := by
  induction i with
  | zero => simp
  | succ i ih =>
    rw [pow_succ', ih, fromBlocks_multiply]
    simp [pow_succ', Matrix.mul_assoc]

namespace Props

/-- C122 (test_utils.cpp). For every system whose matrix has a vanishing power, in particular every chain of integrators, the
discrete model is given by finitely many terms of the series. -/
theorem c122_discretize_nilpotent {nx nu : Nat} (A : Matrix (Fin nx) (Fin nx) ℝ) (B : Matrix (Fin nx) (Fin nu) ℝ) (Ts : ℝ) (k : Nat)
    (h : A ^ k = 0) :
    (discretize A B Ts).1 = ∑ i ∈ Finset.range k, (Ts ^ i / (i.factorial : ℝ)) • A ^ i ∧
    (discretize A B Ts).2 = ∑ i ∈ Finset.range k, (Ts ^ (i + 1) / ((i + 1).factorial : ℝ)) • (A ^ i * B) := by
  set M : Matrix (Fin nx ⊕ Fin nu) (Fin nx ⊕ Fin nu) ℝ := fromBlocks A B 0 0 with hM
  have hk : (Ts • M) ^ (k + 1) = 0 := by
    have hA : A ^ (k + 1) = 0 := by rw [pow_succ, h, Matrix.zero_mul]
    rw [smul_pow, hM, blocks_pow, hA, h, Matrix.zero_mul, fromBlocks_zero, smul_zero]
  have hb : exp (Ts • M) = fromBlocks (discretize A B Ts).1 (discretize A B Ts).2 0 1 := zoh_blocks A B Ts
  rw [exp_of_pow_zero _ _ hk, Finset.sum_range_succ'] at hb
  have hs : ∀ i, (((i + 1).factorial : ℝ)⁻¹) • (Ts • M) ^ (i + 1) =
      fromBlocks ((Ts ^ (i + 1) / ((i + 1).factorial : ℝ)) • A ^ (i + 1)) ((Ts ^ (i + 1) / ((i + 1).factorial : ℝ)) • (A ^ i * B)) 0 0 := by
    intro i
    rw [smul_pow, hM, blocks_pow, smul_smul, fromBlocks_smul]
    simp [div_eq_inv_mul]
  constructor
  · ext p q
    have h1 := congrFun (congrFun hb (.inl p)) (.inl q)
    simp only [hs, Matrix.add_apply, Matrix.sum_apply, fromBlocks_apply₁₁] at h1
    rw [← h1]
    rcases k with _ | k
    · have : (A ^ 0) p q = 0 := by rw [h]; rfl
      simp [Matrix.one_apply] at this ⊢
      intro e
      exact absurd e this
    · have hz : (A ^ (k + 1)) p q = 0 := by rw [h]; rfl
      rw [Matrix.sum_apply, Finset.sum_range_succ, Finset.sum_range_succ' (fun i => ((Ts ^ i / (i.factorial : ℝ)) • A ^ i) p q)]
      simp [Matrix.one_apply, hz]
  · ext p q
    have h1 := congrFun (congrFun hb (.inl p)) (.inr q)
    simp only [hs, Matrix.add_apply, Matrix.sum_apply, fromBlocks_apply₁₂] at h1
    rw [← h1]
    simp [Matrix.sum_apply]

/-- the double integrator with `n` degrees of freedom (test_utils.cpp:13-32): positions first, then velocities -/
def doubleA (n : Nat) : Matrix (Fin (2 * n)) (Fin (2 * n)) ℝ := fun i j => if j.val = i.val + n then 1 else 0

/-- its input matrix: the inputs are the accelerations -/
def doubleB (n : Nat) : Matrix (Fin (2 * n)) (Fin n) ℝ := fun i j => if i.val = j.val + n then 1 else 0

/-- C122 (test_utils.cpp:8-68). For every number of degrees of freedom and every sampling time the discrete model of the double
integrator is the one in the test: over a period the position grows by Ts times the velocity and Ts² / 2 times the acceleration,
the velocity by Ts times the acceleration. -/
theorem c122_discretize_double (n : Nat) (Ts : ℝ) :
    (∀ i j, (discretize (doubleA n) (doubleB n) Ts).1 i j = if j = i then 1 else if j.val = i.val + n then Ts else 0) ∧
    (∀ i j, (discretize (doubleA n) (doubleB n) Ts).2 i j =
      if i.val = j.val then Ts ^ 2 / 2 else if i.val = j.val + n then Ts else 0) := by
  have h2 : doubleA n ^ 2 = 0 := by
    ext i j
    rw [pow_two, Matrix.mul_apply]
    apply Finset.sum_eq_zero
    intro k _
    simp only [doubleA]
    split_ifs <;> first | omega | simp
  have hAB : ∀ i j, (doubleA n * doubleB n) i j = if i.val = j.val then 1 else 0 := by
    intro i j
    rw [Matrix.mul_apply]
    split_ifs with h
    · rw [Finset.sum_eq_single (⟨j.val + n, by omega⟩ : Fin (2 * n))]
      · simp [doubleA, doubleB, h]
      · intro b _ hb
        have : ¬ b.val = i.val + n := fun e => hb (Fin.ext (by simp [e, h]))
        simp [doubleA, this]
      · simp
    · apply Finset.sum_eq_zero
      intro k _
      simp only [doubleA, doubleB]
      split_ifs <;> first | omega | simp
  obtain ⟨h3, h4⟩ := c122_discretize_nilpotent (doubleA n) (doubleB n) Ts 2 h2
  constructor
  · intro i j
    rw [h3]
    simp only [Finset.sum_range_succ, Finset.sum_range_zero, zero_add, pow_zero, pow_one, Nat.factorial, Matrix.add_apply,
      Matrix.smul_apply, Matrix.one_apply, doubleA]
    have hi := i.isLt
    by_cases h : j = i
    · have : ¬ j.val = i.val + n := by rw [h]; omega
      simp [h]
      intro e
      omega
    · simp [h, Ne.symm h]
  · intro i j
    rw [h4]
    simp only [Finset.sum_range_succ, Finset.sum_range_zero, zero_add, pow_zero, pow_one, Nat.factorial, Matrix.add_apply,
      Matrix.smul_apply, Matrix.one_mul, hAB, doubleB]
    have hj := j.isLt
    by_cases h : i.val = j.val
    · have : ¬ i.val = j.val + n := by omega
      simp [h]
      intro e
      omega
    · simp [h]

/-- the numbers of the test: six degrees of freedom, a sampling time of 0.02 -/
example : (discretize (doubleA 6) (doubleB 6) 0.02).1 2 8 = 0.02 ∧ (discretize (doubleA 6) (doubleB 6) 0.02).1 2 2 = 1 ∧
    (discretize (doubleA 6) (doubleB 6) 0.02).2 3 3 = 0.0002 ∧ (discretize (doubleA 6) (doubleB 6) 0.02).2 9 3 = 0.02 ∧
    (discretize (doubleA 6) (doubleB 6) 0.02).2 9 4 = 0 := by
  obtain ⟨h1, h2⟩ := c122_discretize_double 6 0.02
  refine ⟨(h1 2 8).trans ?_, (h1 2 2).trans ?_, (h2 3 3).trans ?_, (h2 9 3).trans ?_, (h2 9 4).trans ?_⟩
  · rw [if_neg (by decide), if_pos (by decide)]
  · rw [if_pos rfl]
  · rw [if_pos (by decide)]; norm_num
  · rw [if_neg (by decide), if_pos (by decide)]
  · rw [if_neg (by decide), if_neg (by decide)]

end Props
end
end Mpc
