import Verif.Model.Interface
import Verif.Props.Statistics
import Verif.Props.LinearRun
import Verif.Props.NlSafety

/-
C62: the execution statistics of a controller are about exactly the results its `optimize` returned.
-/
namespace Mpc.Props
open Mpc.Spec Exec
noncomputable section

/-- the calls of a history, without the calls about statistics -/
def callsOf {Op : Type} (ops : List (IOp Op)) : List Op :=
  ops.filterMap fun
    | .call op _ _ => some op
    | .resetStats => none

/-- what happened to the statistics according to a history and what its calls returned: a result of status `st` between
the clock readings `start` and `stop`, or a reset -/
def seen {Op Out : Type} (status : Out → Option ResultStatus) : List (IOp Op) → List (Option Out) → List StatOp
  | .call _ start stop :: ops, some out :: outs =>
    match status out with
    | some st => .optimize start stop (some st) :: seen status ops outs
    | none => seen status ops outs
  | .resetStats :: ops, _ :: outs => .resetStats :: seen status ops outs
  | _, _ => []

/-- the statistics `s` are those of the results of history `l` since its last reset -/
structure StatsOf (s : SolutionStats) (l : List StatOp) : Prop where
  number : s.numberOfSolutions = (durations l).length
  total : s.totalSolutionTime = (durations l).sum
  average : durations l ≠ [] → s.averageSolutionTime = mean (durations l)
  least : durations l ≠ [] → IsLeast {t | t ∈ durations l} s.minSolutionTime
  greatest : durations l ≠ [] → IsGreatest {t | t ∈ durations l} s.maxSolutionTime
  status : ∀ st c, s.solutionsStates st = some c ↔ (0 < c ∧ c = ((recorded l).filter fun q => q.1 = st).length)

section generic
variable {M Op Out : Type} {stepC : M → Op → Exec (M × Out)} {status : Out → Option ResultStatus} {big : ℝ}
  {execC : M → List Op → Exec (M × List Out)}

/-- what a history does to controller and profiler, separately -/
theorem withStats_split (hnil : ∀ m, execC m [] = .ok (m, []))
    (hcons : ∀ m op ops, execC m (op :: ops) = (do
      let r ← stepC m op
      let s ← execC r.1 ops
      return (s.1, r.2 :: s.2))) : ∀ (ops : List (IOp Op)) (c c' : WithStats M) (outs : List (Option Out)),
      c.exec stepC status big ops = .ok (c', outs) →
      execC c.ctl (callsOf ops) = .ok (c'.ctl, outs.filterMap id) ∧ c.prof.exec big (seen status ops outs) = .ok c'.prof := by
  intro ops
  induction ops with
  | nil =>
    intro c c' outs h
    cases h
    exact ⟨by simp [callsOf, hnil], rfl⟩
  | cons op ops ih =>
    intro c c' outs h
    simp only [WithStats.exec] at h
    obtain ⟨⟨c1, o1⟩, h1, h⟩ := (bind_eq_ok ..).1 h
    obtain ⟨⟨c2, os⟩, h2, h⟩ := (bind_eq_ok ..).1 h
    cases h
    obtain ⟨ia, ib⟩ := ih _ _ _ h2
    cases op with
    | resetStats =>
      cases h1
      refine ⟨by simpa [callsOf] using ia, ?_⟩
      simp only [seen, Profiler.exec, Profiler.step, ok_bind]
      exact ib
    | call op a b =>
      simp only [WithStats.step] at h1
      obtain ⟨⟨m1, out⟩, e1, h1⟩ := (bind_eq_ok ..).1 h1
      cases hst : status out with
      | none =>
        simp only [hst] at h1
        cases h1
        refine ⟨?_, ?_⟩
        · simp only [callsOf, List.filterMap_cons, hcons, e1, ok_bind]
          simp only [callsOf] at ia
          rw [ia]; rfl
        · simp only [seen, hst]; exact ib
      | some st =>
        simp only [hst] at h1
        obtain ⟨⟨q, t⟩, e2, h1⟩ := (bind_eq_ok ..).1 h1
        cases h1
        refine ⟨?_, ?_⟩
        · simp only [callsOf, List.filterMap_cons, hcons, e1, ok_bind]
          simp only [callsOf] at ia
          rw [ia]; rfl
        · simp only [seen, hst, Profiler.exec, Profiler.step, e2, ok_bind]
          exact ib

/-- when the controller runs, so does the controller with its profiler -/
theorem withStats_total (hnil : ∀ m, execC m [] = .ok (m, []))
    (hcons : ∀ m op ops, execC m (op :: ops) = (do
      let r ← stepC m op
      let s ← execC r.1 ops
      return (s.1, r.2 :: s.2))) : ∀ (ops : List (IOp Op)) (c : WithStats M) (r : M × List Out),
      c.prof.stats.numberOfSolutions + ops.length < intMax →
      (∀ st, ((c.prof.stats.solutionsStates st).getD 0) ≤ c.prof.stats.numberOfSolutions) →
      execC c.ctl (callsOf ops) = .ok r → ∃ q, c.exec stepC status big ops = .ok q := by
  intro ops
  induction ops with
  | nil => intro c r _ _ _; exact ⟨_, rfl⟩
  | cons op ops ih =>
    intro c r hl hs h
    simp only [List.length_cons] at hl
    cases op with
    | resetStats =>
      obtain ⟨q, hq⟩ := ih ⟨c.ctl, c.prof.reset big⟩ r
        (by simp only [Profiler.reset, SolutionStats.clear]; omega)
        (by intro st; simp [Profiler.reset, SolutionStats.clear]) (by simpa [callsOf] using h)
      exact ⟨_, by simp only [WithStats.exec, WithStats.step, ok_bind, hq]; rfl⟩
    | call op a b =>
      have h' : execC c.ctl (op :: callsOf ops) = .ok r := by simpa [callsOf] using h
      rw [hcons] at h'
      obtain ⟨⟨m1, out⟩, e1, h'⟩ := (bind_eq_ok ..).1 h'
      obtain ⟨s, e2, h'⟩ := (bind_eq_ok ..).1 h'
      cases hst : status out with
      | none =>
        obtain ⟨q, hq⟩ := ih ⟨m1, c.prof⟩ s (by simp only; omega) hs e2
        exact ⟨_, by simp only [WithStats.exec, WithStats.step, e1, ok_bind, hst, pure_bind', hq]; rfl⟩
      | some st =>
        have hc : ((c.prof.stats.solutionsStates st).getD 0) < intMax := by have := hs st; omega
        have hcs : ∃ s1, c.prof.stats.countStatus st = .ok s1 := by
          simp only [SolutionStats.countStatus, incr, if_pos hc]; exact ⟨_, rfl⟩
        obtain ⟨s1, hs1⟩ := hcs
        have hsp := countStatus_spec hs1
        have hn1 : s1.numberOfSolutions = c.prof.stats.numberOfSolutions := by rw [hsp]
        obtain ⟨s2, hs2⟩ := add_ok (s := s1) (b - a) (by omega)
        have hap := add_spec hs2
        obtain ⟨q, hq⟩ := ih ⟨m1, { startTime := a, stats := s2 }⟩ s
          (by simp only [hap, hn1]; omega)
          (by
            intro t
            have h0 := hs t
            simp only [hap, hn1, hsp]
            split_ifs with ht
            · subst ht; simpa using h0
            · omega) e2
        refine ⟨(q.1, some out :: q.2), ?_⟩
        simp only [WithStats.exec, WithStats.step, e1, ok_bind, hst, Profiler.solutionStart, Profiler.solutionEnd, hs1, id_eq, hs2,
          pure_bind', hq]
        rfl

theorem seen_rep {ops : List (IOp Op)} (hr : ∀ op a b, IOp.call op a b ∈ ops → |b - a| ≤ big) :
    ∀ (outs : List (Option Out)), Representable big (seen status ops outs) := by
  induction ops with
  | nil => intro outs a b st h; cases outs <;> simp [seen] at h
  | cons op ops ih =>
    intro outs
    have ih' := ih fun o a b h => hr o a b (List.mem_cons_of_mem _ h)
    cases outs with
    | nil => cases op <;> (intro a b st h; simp [seen] at h)
    | cons o outs =>
      cases op with
      | resetStats =>
        intro a b st h
        simp only [seen, List.mem_cons, reduceCtorEq, false_or] at h
        exact ih' outs a b st h
      | call op a b =>
        cases o with
        | none => intro a b st h; simp [seen] at h
        | some out =>
          intro x y st h
          cases hst : status out with
          | none =>
            simp only [seen, hst] at h
            exact ih' outs x y st h
          | some s0 =>
            simp only [seen, hst, List.mem_cons, StatOp.optimize.injEq] at h
            rcases h with ⟨rfl, rfl, -⟩ | h
            · exact hr _ _ _ List.mem_cons_self
            · exact ih' outs x y st h

theorem statsOf_seen {t0 : ℝ} {l : List StatOp} {p : Profiler} (hr : Representable big l)
    (h : (Profiler.new big t0).exec big l = .ok p) : StatsOf p.stats l := by
  have h1 := c25_statistics hr h
  have h2 := c27_histogram hr h
  exact ⟨h1.1, h1.2.1, fun hn => (h1.2.2.1 hn).1, fun hn => (h1.2.2.1 hn).2.1, fun hn => (h1.2.2.1 hn).2.2, h2.1⟩

end generic

section linear
variable {K : Type} [Field K] [DecidableEq K] {d : Dims} {big t0 : ℝ}

theorem lmpc_exec_cons (m : LMpc K) (op : LOp K) (ops : List (LOp K)) : m.exec (op :: ops) = (do
    let r ← m.step op
    let s ← r.1.exec ops
    return (s.1, r.2 :: s.2)) := rfl

/-- C62, linear controller. Recording statistics does not change what the calls return, and the statistics are those of
the results `optimize` returned since the last reset. -/
theorem c62_linear {m0 : LMpc K} {ops : List (IOp (LOp K))} {c : WithStats (LMpc K)} {outs : List (Option (LOut K))}
    (hr : ∀ op a b, IOp.call op a b ∈ ops → |b - a| ≤ big)
    (h : (⟨m0, .new big t0⟩ : WithStats (LMpc K)).exec LMpc.step LOut.status big ops = .ok (c, outs)) :
    m0.exec (callsOf ops) = .ok (c.ctl, outs.filterMap id) ∧ StatsOf c.prof.stats (seen reportedL ops outs) := by
  have e : LOut.status (K := K) = reportedL := by funext o; cases o <;> rfl
  rw [e] at h
  obtain ⟨h1, h2⟩ := withStats_split (execC := fun m l => LMpc.exec m l) (fun _ => rfl) lmpc_exec_cons ops _ _ _ h
  exact ⟨h1, statsOf_seen (seen_rep hr outs) h2⟩

/-- C62, linear controller. Recording statistics makes no history of fewer than 2^31 - 1 calls fail. -/
theorem c62_linear_total {m0 : LMpc K} {ops : List (IOp (LOp K))} {r : LMpc K × List (LOut K)} (hl : ops.length < 2 ^ 31 - 1)
    (h : m0.exec (callsOf ops) = .ok r) :
    ∃ q, (⟨m0, .new big t0⟩ : WithStats (LMpc K)).exec LMpc.step LOut.status big ops = .ok q :=
  withStats_total (execC := fun m l => LMpc.exec m l) (fun _ => rfl) lmpc_exec_cons ops _ r
    (by simpa [Profiler.new, SolutionStats.clear, intMax] using hl)
    (by intro st; simp [Profiler.new, SolutionStats.clear]) h

/-- non-vacuity: three solver runs with a reset between the first and the second -/
example : ∃ (m0 : LMpc ℚ) (q : WithStats (LMpc ℚ) × List (Option (LOut ℚ))), LMpc.new (dims1 2 2) (fun _ _ => (0 : ℚ)) (fun _ => 0) = .ok m0 ∧
    (⟨m0, .new 100 0⟩ : WithStats (LMpc ℚ)).exec LMpc.step LOut.status 100
      [.call (plant1 1 1) 0 0, .call (.optimize (cvec 1 0) (cvec 1 0) (.answered 1 0 (some (fun _ => 4, fun _ => 0)))) 1 3,
        .resetStats, .call (.optimize (cvec 1 0) (cvec 1 0) (.answered 1 0 (some (fun _ => 5, fun _ => 0)))) 4 9,
        .call (.optimize (cvec 1 0) (cvec 1 0) (.answered (-3) 0 none)) 10 11] = .ok q := by
  obtain ⟨m0, r, h0, hr⟩ := c57_harmless_partial (d := dims1 2 2) (dims1_valid (by decide) (by decide) (by decide) (by decide)) (by decide)
    (by decide) (fun _ _ => (0 : ℚ)) (fun _ => 0) c19Ops
    (by simp [c19Ops, plant1, Sized, SliceNonneg, sliceOf, Harmless, dims1, cmat, cvec])
  obtain ⟨q, hq⟩ := c62_linear_total (big := 100) (t0 := 0) (m0 := m0) (r := r)
    (ops := [.call (plant1 1 1) 0 0, .call (.optimize (cvec 1 0) (cvec 1 0) (.answered 1 0 (some (fun _ => 4, fun _ => 0)))) 1 3,
        .resetStats, .call (.optimize (cvec 1 0) (cvec 1 0) (.answered 1 0 (some (fun _ => 5, fun _ => 0)))) 4 9,
        .call (.optimize (cvec 1 0) (cvec 1 0) (.answered (-3) 0 none)) 10 11]) (by simp) hr
  exact ⟨m0, q, h0, hq⟩

end linear

section nonlinear
variable {K : Type} [Field K] [LinearOrder K] {d : Dims} {big t0 : ℝ}

/-- a history of calls on a nonlinear controller that exists already -/
def nlExec (m : NlMpc d K) : List (NlCall d K) → Exec (NlMpc d K × List (NlOut K))
  | [] => .ok (m, [])
  | op :: ops => do
    let r ← m.step op
    let s ← nlExec r.1 ops
    return (s.1, r.2 :: s.2)

theorem nl_foldl (ops : List (NlCall d K)) : ∀ (m : NlMpc d K) (pre : List (NlOut K)),
    ops.foldl (fun e c => e >>= fun q => do
      let r ← q.1.step c
      return (r.1, q.2 ++ [r.2])) (.ok (m, pre) : Exec (NlMpc d K × List (NlOut K))) =
    (nlExec m ops).map fun q => (q.1, pre ++ q.2) := by
  induction ops with
  | nil => intro m pre; simp [nlExec, Except.map]
  | cons op ops ih =>
    intro m pre
    simp only [List.foldl_cons, ok_bind, nlExec]
    cases h : m.step op with
    | error e =>
      simp only [error_bind, Except.map]
      clear ih h
      induction ops with
      | nil => rfl
      | cons o os ih => simpa using ih
    | ok r =>
      simp only [ok_bind]
      have := ih r.1 (pre ++ [r.2])
      simp only [pure, Except.pure] at this ⊢
      rw [this]
      cases nlExec r.1 ops <;> simp [Except.map, bind, Except.bind]

theorem nl_run_eq (d : Dims) (junk : Nat → K) (dyn : Bool) (ops : List (NlCall d K)) :
    NlMpc.run d junk dyn ops = NlMpc.init d junk dyn >>= fun m => nlExec m ops := by
  unfold NlMpc.run
  cases h : NlMpc.init d junk dyn with
  | error e =>
    simp only [error_bind]
    clear h
    induction ops with
    | nil => rfl
    | cons o os ih => simpa using ih
  | ok m =>
    simp only [ok_bind]
    have := nl_foldl ops m []
    simp only [pure, Except.pure] at this ⊢
    rw [this]
    cases nlExec m ops <;> simp [Except.map]

/-- C62, nonlinear controller. Recording statistics does not change what the calls return, and the statistics are those
of the results `optimize` returned since the last reset. -/
theorem c62_nonlinear {junk : Nat → K} {dyn : Bool} {m0 : NlMpc d K} (h0 : NlMpc.init d junk dyn = .ok m0)
    {ops : List (IOp (NlCall d K))} {c : WithStats (NlMpc d K)} {outs : List (Option (NlOut K))}
    (hr : ∀ op a b, IOp.call op a b ∈ ops → |b - a| ≤ big)
    (h : (⟨m0, .new big t0⟩ : WithStats (NlMpc d K)).exec NlMpc.step NlOut.status big ops = .ok (c, outs)) :
    NlMpc.run d junk dyn (callsOf ops) = .ok (c.ctl, outs.filterMap id) ∧
      StatsOf c.prof.stats (seen reportedNl ops outs) := by
  have e : NlOut.status (K := K) = reportedNl := by funext o; cases o <;> rfl
  rw [e] at h
  obtain ⟨h1, h2⟩ := withStats_split (execC := nlExec) (fun _ => rfl) (fun _ _ _ => rfl) ops _ _ _ h
  refine ⟨?_, statsOf_seen (seen_rep hr outs) h2⟩
  rw [nl_run_eq, h0]
  exact h1

/-- C62, nonlinear controller. Recording statistics makes no history of fewer than 2^31 - 1 calls fail. -/
theorem c62_nonlinear_total {junk : Nat → K} {dyn : Bool} {m0 : NlMpc d K} (h0 : NlMpc.init d junk dyn = .ok m0)
    {ops : List (IOp (NlCall d K))} {r : NlMpc d K × List (NlOut K)} (hl : ops.length < 2 ^ 31 - 1)
    (h : NlMpc.run d junk dyn (callsOf ops) = .ok r) :
    ∃ q, (⟨m0, .new big t0⟩ : WithStats (NlMpc d K)).exec NlMpc.step NlOut.status big ops = .ok q :=
  withStats_total (execC := nlExec) (fun _ => rfl) (fun _ _ _ => rfl) ops _ r
    (by simpa [Profiler.new, SolutionStats.clear, intMax] using hl)
    (by intro st; simp [Profiler.new, SolutionStats.clear]) (by rw [nl_run_eq, h0] at h; exact h)

/-- non-vacuity: the sample history, every call timed -/
example : ∃ (m0 : NlMpc dN ℚ) (q : WithStats (NlMpc dN ℚ) × List (Option (NlOut ℚ))), NlMpc.init dN (fun _ => (0 : ℚ)) false = .ok m0 ∧
    (⟨m0, .new 100 0⟩ : WithStats (NlMpc dN ℚ)).exec NlMpc.step NlOut.status 100
      (opsN.map (fun op => IOp.call op 1 3) ++ [.resetStats]) = .ok q := by
  obtain ⟨m0, h0⟩ := c61_construct_partial (K := ℚ) dN_ok (fun _ => 0) false
  obtain ⟨r, hr⟩ := NlMpc.run_total (K := ℚ) dN_ok.ch_pos dN_ok.ch_le (by decide) (by decide) (fun _ => 0) false _ opsN_fits opsN_adm
  have hc : callsOf (opsN.map (fun op => IOp.call op 1 3) ++ [.resetStats]) = opsN := by
    unfold opsN; rfl
  obtain ⟨q, hq⟩ := c62_nonlinear_total (big := 100) (t0 := 0) h0 (ops := opsN.map (fun op => IOp.call op 1 3) ++ [.resetStats]) (r := r)
    (by unfold opsN; simp) (by rw [hc]; exact hr)
  exact ⟨m0, q, h0, hq⟩

end nonlinear

end
end Mpc.Props
