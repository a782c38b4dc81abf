import Verif.Props.NlExceptions
import Verif.Props.ControllerStats

/-
C62 with user functions which throw: the statistics count exactly the calls of `optimize` which returned.
-/
namespace Mpc.Props
open Mpc Exec Spec
noncomputable section
variable {K : Type} [Field K] [LinearOrder K] {d : Dims} {big t0 : ℝ}

/-- a history of calls on a nonlinear controller that exists already, with user functions which may throw -/
def nlExecT (m : NlMpc d K) : List (NlTCall d K) → Exec (NlMpc d K × List (NlOut K))
  | [] => .ok (m, [])
  | op :: ops => do
    let r ← m.stepT op
    let s ← nlExecT r.1 ops
    return (s.1, r.2 :: s.2)

theorem nlT_foldl (ops : List (NlTCall d K)) : ∀ (m : NlMpc d K) (pre : List (NlOut K)),
    ops.foldl (fun e c => e >>= fun q => do
      let r ← q.1.stepT c
      return (r.1, q.2 ++ [r.2])) (.ok (m, pre) : Exec (NlMpc d K × List (NlOut K))) =
    (nlExecT m ops).map fun q => (q.1, pre ++ q.2) := by
  induction ops with
  | nil => intro m pre; simp [nlExecT, Except.map]
  | cons op ops ih =>
    intro m pre
    simp only [List.foldl_cons, ok_bind, nlExecT]
    cases h : m.stepT op with
    | error e =>
      simp only [error_bind, Except.map]
      clear ih h
      induction ops with
      | nil => rfl
      | cons o os ih => simpa using ih
    | ok r =>
      simp only [ok_bind]
      have := ih r.1 (pre ++ [r.2])
      simp only [pure, Except.pure] at this ⊢
      rw [this]
      cases nlExecT r.1 ops <;> simp [Except.map, bind, Except.bind]

theorem nlT_run_eq (d : Dims) (junk : Nat → K) (dyn : Bool) (ops : List (NlTCall d K)) :
    NlMpc.runT d junk dyn ops = NlMpc.init d junk dyn >>= fun m => nlExecT m ops := by
  unfold NlMpc.runT
  cases h : NlMpc.init d junk dyn with
  | error e =>
    simp only [error_bind]
    clear h
    induction ops with
    | nil => rfl
    | cons o os ih => simpa using ih
  | ok m =>
    simp only [ok_bind]
    have := nlT_foldl ops m []
    simp only [pure, Except.pure] at this ⊢
    rw [this]
    cases nlExecT m ops <;> simp [Except.map]

/-- C62, with user functions which throw. The statistics are those of the results `optimize` returned since the last reset: a
call which leaves with an exception is not counted, and disturbs neither the counts nor the durations of the others. -/
theorem c62_throwing {junk : Nat → K} {dyn : Bool} {m0 : NlMpc d K} (h0 : NlMpc.init d junk dyn = .ok m0)
    {ops : List (IOp (NlTCall d K))} {c : WithStats (NlMpc d K)} {outs : List (Option (NlOut K))}
    (hr : ∀ op a b, IOp.call op a b ∈ ops → |b - a| ≤ big)
    (h : (⟨m0, .new big t0⟩ : WithStats (NlMpc d K)).exec NlMpc.stepT NlOut.status big ops = .ok (c, outs)) :
    NlMpc.runT d junk dyn (callsOf ops) = .ok (c.ctl, outs.filterMap id) ∧
      StatsOf c.prof.stats (seen reportedNl ops outs) := by
  have e : NlOut.status (K := K) = reportedNl := by funext o; cases o <;> rfl
  rw [e] at h
  obtain ⟨h1, h2⟩ := withStats_split (execC := nlExecT) (fun _ => rfl) (fun _ _ _ => rfl) ops _ _ _ h
  refine ⟨?_, statsOf_seen (seen_rep hr outs) h2⟩
  rw [nlT_run_eq, h0]
  exact h1

/-- C62, with user functions which throw: recording statistics makes no history of fewer than 2^31 - 1 calls fail. -/
theorem c62_throwing_total {junk : Nat → K} {dyn : Bool} {m0 : NlMpc d K} (h0 : NlMpc.init d junk dyn = .ok m0)
    {ops : List (IOp (NlTCall d K))} {r : NlMpc d K × List (NlOut K)} (hl : ops.length < 2 ^ 31 - 1)
    (h : NlMpc.runT d junk dyn (callsOf ops) = .ok r) :
    ∃ q, (⟨m0, .new big t0⟩ : WithStats (NlMpc d K)).exec NlMpc.stepT NlOut.status big ops = .ok q :=
  withStats_total (execC := nlExecT) (fun _ => rfl) (fun _ _ _ => rfl) ops _ r
    (by simpa [Profiler.new, SolutionStats.clear, intMax] using hl)
    (by intro st; simp [Profiler.new, SolutionStats.clear]) (by rw [nlT_run_eq, h0] at h; exact h)

/-- non-vacuity: the sample history with exceptions, every call timed -/
example : ∃ (m0 : NlMpc dN ℚ) (q : WithStats (NlMpc dN ℚ) × List (Option (NlOut ℚ))), NlMpc.init dN (fun _ => (0 : ℚ)) false = .ok m0 ∧
    (⟨m0, .new 100 0⟩ : WithStats (NlMpc dN ℚ)).exec NlMpc.stepT NlOut.status 100
      (opsT.map (fun op => IOp.call op 1 3) ++ [.resetStats]) = .ok q := by
  obtain ⟨m0, h0⟩ := c61_construct_partial (K := ℚ) dN_ok (fun _ => 0) false
  obtain ⟨r, hr⟩ := NlMpc.runT_total (K := ℚ) dN_ok.ch_pos dN_ok.ch_le (by decide) (by decide) (fun _ => 0) false _ opsT_fits opsT_adm
  have hc : callsOf (opsT.map (fun op => IOp.call op 1 3) ++ [.resetStats]) = opsT := by
    unfold opsT opsN; rfl
  obtain ⟨q, hq⟩ := c62_throwing_total (big := 100) (t0 := 0) h0 (ops := opsT.map (fun op => IOp.call op 1 3) ++ [.resetStats]) (r := r)
    (by unfold opsT opsN; simp) (by rw [hc]; exact hr)
  exact ⟨m0, q, h0, hq⟩

end
end Mpc.Props
