import Verif.Props.LogSettings

/-
C92: what `optimize` leaves in the log.
-/
namespace Mpc
open Mpc.Spec Exec
set_option linter.unusedSectionVars false
variable {k : Kind}

namespace Props

/-- C92 as stated, second half: in every program, when `optimize` does not succeed, the log shows something even at the level
ALERT, that is there is an error message. -/
def C92Claim (sp : Speaker k) (failed : k.Out → Prop) : Prop :=
  ∀ (acts : List (LAct k)) w outs, (LogWorld.empty k).run sp acts = .ok (w, outs) →
    ∀ i op e w' out ms, w.step sp (.act (.call i op) e) = .ok (w', some out, ms) → failed out → errors ms ≠ []

/-- the result says that the call was not successful -/
def failedL {K : Type} [Field K] : LOut K → Prop
  | .result r _ => r.status = .ERROR ∨ r.status = .INFEASIBLE
  | _ => False

/-- the result says that the call was not successful -/
def failedN {K : Type} : NlOut K → Prop
  | .result r _ => r.status = .ERROR ∨ r.status = .INFEASIBLE
  | _ => False

section
variable {K : Type}

theorem summary_lines (num : Ext K → String) (duration : String) (r : LResult K) (msg : String) :
    summary num duration r msg = ⟨.INFO, joined (reportLines num duration r msg)⟩ := by
  have h1 : "Optimization step completed\n" = "Optimization step completed" ++ "\n" := rfl
  have h2 : " (sec)\n" = " (sec)" ++ "\n" := rfl
  have h3 : ")\n" = ")" ++ "\n" := rfl
  have hs : ∀ n : Nat, ∀ t : String, toString n = t → r.status.toInt = n → statusText r.status = t →
      summary num duration r msg = ⟨.INFO, joined (reportLines num duration r msg)⟩ := by
    intro n t h4 h5 h6
    unfold summary reportLines
    rw [h5, h6, h4, h1, h2, h3]
    simp only [joined, String.append_assoc, String.append_empty]
  cases h : r.status with
  | SUCCESS => exact hs 0 "0" rfl (by rw [h]; rfl) (by rw [h]; rfl)
  | MAX_ITERATION => exact hs 1 "1" rfl (by rw [h]; rfl) (by rw [h]; rfl)
  | INFEASIBLE => exact hs 2 "2" rfl (by rw [h]; rfl) (by rw [h]; rfl)
  | ERROR => exact hs 3 "3" rfl (by rw [h]; rfl) (by rw [h]; rfl)
  | UNKNOWN => exact hs 4 "4" rfl (by rw [h]; rfl) (by rw [h]; rfl)

end

section
variable {K : Type} [Field K] [DecidableEq K] [LinearOrder K] [IsStrictOrderedRing K]

theorem infos_flags (t : String) (f : Int) : infos (flagMsg t f) = [] := by
  unfold flagMsg
  split <;> simp [infos]

/-- C92 for the linear controller: `optimize` leaves exactly one message of type INFO, which reports what it returned. -/
theorem c92_linear {num : Ext K → String} {w w' : LogWorld (linearKind K)} {i : Nat} {x0 u0 : Vec K}
    {oc : OsqpOutcome K} {e : Said} {out : Option (LOut K)} {ms : List Msg}
    (h : w.step (linearSpeaker K num) (.act (.call i (.optimize x0 u0 oc)) e) = .ok (w', out, ms)) :
    ∃ r call, out = some (.result r call) ∧ infos ms = [⟨.INFO, joined (reportLines num e.duration r "")⟩] := by
  obtain ⟨r, call, ho, rfl⟩ := linear_reports h
  refine ⟨r, call, ho, ?_⟩
  rw [infos_weave]
  have h1 := infos_flags "Unable to setup " e.setupFlag
  have h2 : infos (if call.warm.isSome then flagMsg "Unable to warm start " e.warmFlag else []) = [] := by
    split
    · exact infos_flags _ _
    · rfl
  have h3 := infos_flags "Unable to solve " e.solveFlag
  unfold infos at h1 h2 h3 ⊢
  rw [List.filter_append, List.filter_append, List.filter_append, h1, h2, h3, summary_lines]
  rfl

/-- C92 for the linear controller: at level NORMAL, the stream in force receives the report, each message with its tag, preceded by
nothing when OSQP reports no error. -/
theorem c92_linear_text {num : Ext K → String} {acts : List (LAct (linearKind K))} {w w' : LogWorld (linearKind K)} {outs}
    {i : Nat} {x0 u0 : Vec K} {oc : OsqpOutcome K} {e : Said} {r : LResult K} {call : OsqpCall K} {ms : List Msg}
    (hr : (LogWorld.empty _).run (linearSpeaker K num) acts = .ok (w, outs))
    (h : w.step (linearSpeaker K num) (.act (.call i (.optimize x0 u0 oc)) e) = .ok (w', some (.result r call), ms))
    (h1 : e.setupFlag ≤ 0) (h2 : e.warmFlag ≤ 0) (h3 : e.solveFlag ≤ 0) (hl : levelAt acts = .NORMAL) (s : Nat) :
    w'.log.text s = w.log.text s ++ (if streamAt acts = some s then
      tag (prefixAt acts) ++ joined (reportLines num e.duration r "") else "") := by
  obtain ⟨r', call', ho, rfl⟩ := linear_reports h
  cases ho
  rw [(act_text (run_text inForce_new hr).1 h).2 s, show ([] ++ acts) = acts from rfl]
  have hf : ∀ t (f : Int), f ≤ 0 → flagMsg t f = [] := fun t f hf => if_neg (by omega)
  rw [shown_weave (by rw [hl]; simp), hf _ _ h1, hf _ _ h2, hf _ _ h3, ite_self, summary_lines, hl]
  simp [shown, visible]

end

section
variable {d : Dims} {K : Type} [Field K] [LinearOrder K] [IsStrictOrderedRing K]

/-- `optimize` of the nonlinear controller returns a result and writes its report -/
theorem nonlinear_reports {num : Ext K → String} {w w' : LogWorld (nonlinearKind d K)} {i : Nat} {x0 u0 : Vec K}
    {cs : List (NlCallback K)} {oc : NlOutcome K} {junk : Nat → K} {e : Said} {out : Option (NlOut K)} {ms : List Msg}
    (h : w.step (nonlinearSpeaker d K num) (.act (.call i (.optimize x0 u0 cs oc junk)) e) = .ok (w', out, ms)) :
    ∃ r call, out = some (.result r call) ∧ ms = weave e.details [summary num e.duration r (nlStatusMsg e.failure oc)] := by
  obtain ⟨o, c, b, r, -, -, -, hr, ho, hm⟩ := LogWorld.call_ok h
  obtain ⟨p, hp, rfl⟩ := nonlinearKind_step.mp hr
  have hp : NlMpc.optimize _ _ _ _ _ _ = Except.ok p := hp
  unfold NlMpc.optimize at hp
  simp only [bind_eq_ok] at hp
  obtain ⟨_, -, _, -, _, -, m, -, hp⟩ := hp
  cases hp
  exact ⟨_, _, ho, hm⟩

/-- the status message: empty if the solver and the check after it return, and otherwise the reason -/
theorem nlStatusMsg_spec (f : Failure) (oc : NlOutcome K) :
    ((∃ z v c, oc = .answered z v c false) → nlStatusMsg f oc = "") ∧
    ((∀ z v c, oc ≠ .answered z v c false) →
      nlStatusMsg f oc = "Floating point precision limit reached before stopping criteria" ∨
        ∃ what, nlStatusMsg f oc = "Internal solver error: " ++ what) := by
  refine ⟨?_, fun h => ?_⟩
  · rintro ⟨z, v, c, rfl⟩; rfl
  · rcases oc with _ | ⟨z, v, c, _ | _⟩
    · cases f with
      | roundoff => exact .inl rfl
      | other what => exact .inr ⟨what, rfl⟩
    · exact absurd rfl (h z v c)
    · cases f with
      | roundoff => exact .inl rfl
      | other what => exact .inr ⟨what, rfl⟩

/-- C92 for the nonlinear controller: `optimize` leaves exactly one message of type INFO, which reports what it returned and, when the
solver failed, why; and no error message. -/
theorem c92_nonlinear {num : Ext K → String} {w w' : LogWorld (nonlinearKind d K)} {i : Nat} {x0 u0 : Vec K}
    {cs : List (NlCallback K)} {oc : NlOutcome K} {junk : Nat → K} {e : Said} {out : Option (NlOut K)} {ms : List Msg}
    (h : w.step (nonlinearSpeaker d K num) (.act (.call i (.optimize x0 u0 cs oc junk)) e) = .ok (w', out, ms)) :
    ∃ r call msg, out = some (.result r call) ∧ infos ms = [⟨.INFO, joined (reportLines num e.duration r msg)⟩] ∧
      errors ms = [] ∧
      ((∃ z v c, oc = .answered z v c false) → msg = "") ∧
      ((∀ z v c, oc ≠ .answered z v c false) →
        msg = "Floating point precision limit reached before stopping criteria" ∨
          ∃ what, msg = "Internal solver error: " ++ what) := by
  obtain ⟨r, call, ho, rfl⟩ := nonlinear_reports h
  refine ⟨r, call, _, ho, ?_, ?_, nlStatusMsg_spec e.failure oc⟩
  · rw [infos_weave, summary_lines]; rfl
  · rw [errors_weave, summary_lines]; rfl

/-- C92 for the nonlinear controller: at level NORMAL the stream in force receives exactly the report. -/
theorem c92_nonlinear_text {num : Ext K → String} {acts : List (LAct (nonlinearKind d K))} {w w' : LogWorld (nonlinearKind d K)}
    {outs} {i : Nat} {x0 u0 : Vec K} {cs : List (NlCallback K)} {z : Vec K} {v : Ext K} {code : Int} {junk : Nat → K}
    {e : Said} {r : LResult K} {call : NlSolverCall K} {ms : List Msg}
    (hr : (LogWorld.empty _).run (nonlinearSpeaker d K num) acts = .ok (w, outs))
    (h : w.step (nonlinearSpeaker d K num) (.act (.call i (.optimize x0 u0 cs (.answered z v code false) junk)) e) =
      .ok (w', some (.result r call), ms)) (hl : levelAt acts = .NORMAL) (s : Nat) :
    w'.log.text s = w.log.text s ++ (if streamAt acts = some s then
      tag (prefixAt acts) ++ joined (reportLines num e.duration r "") else "") := by
  obtain ⟨r', call', ho, rfl⟩ := nonlinear_reports h
  cases ho
  rw [(act_text (run_text inForce_new hr).1 h).2 s, show ([] ++ acts) = acts from rfl, shown_weave (by rw [hl]; simp),
    summary_lines, hl]
  simp [shown, visible, nlStatusMsg]

end

/-- C92 is violated for the linear controller: OSQP finds no solution, and no error message is left. -/
theorem c92_linear_violated : ∃ num, ¬ C92Claim (linearSpeaker ℚ num) (failedL (K := ℚ)) := by
  refine ⟨fun _ => "", fun hc => ?_⟩
  obtain ⟨m, m', r, call, ha⟩ := asked_of_accepts (d := sampleDims) (ops := []) (x0 := cvec 2 1) (u0 := cvec 1 0) sample_valid (by decide) (by decide)
    (by simp) rfl rfl (-3) 0 (some (fun _ => (0 : ℚ), fun _ => 0))
  obtain ⟨uninit, junk, m0, h0, he⟩ := ha.built
  obtain rfl : m0 = m := by
    simp only [LMpc.exec, List.map_nil, Except.ok.injEq, Prod.mk.injEq] at he
    exact he.1
  obtain ⟨w, outs, hr, ho, g0, g1⟩ := one_linear (fun _ => "") (a := (sampleDims, uninit, junk)) h0
  obtain ⟨w', ms, f⟩ := linear_call (num := fun _ => "") {} g0 g1 ho ha.optimized
  have hs : r.status = .INFEASIBLE := by
    rw [(osqp_status ha).1]; simp [convertOsqpStatus]
  obtain ⟨r', call', hout, rfl⟩ := linear_reports f
  cases hout
  refine hc _ _ _ hr 0 _ {} w' _ _ f (.inr hs) ?_
  rw [errors_weave, summary_lines]
  simp [flagMsg, errors]

/-- Non-vacuity of `c92_linear` and `c92_linear_text`. -/
example : ∃ (acts : List (LAct (linearKind ℚ))) (w w' : LogWorld (linearKind ℚ)) (outs : _) (x0 u0 : Vec ℚ) (oc : OsqpOutcome ℚ)
    (e : Said) (r : LResult ℚ) (call : _) (ms : List Msg),
    (LogWorld.empty _).run (linearSpeaker ℚ fun _ => "") acts = .ok (w, outs) ∧
    w.step (linearSpeaker ℚ fun _ => "") (.act (.call 0 (.optimize x0 u0 oc)) e) = .ok (w', some (.result r call), ms) ∧
    e.setupFlag ≤ 0 ∧ e.warmFlag ≤ 0 ∧ e.solveFlag ≤ 0 ∧ levelAt acts = .NORMAL ∧ streamAt acts = some 0 := by
  obtain ⟨m, m', r, call, ha⟩ := asked_of_accepts (d := sampleDims) (ops := []) (x0 := cvec 2 1) (u0 := cvec 1 0) sample_valid (by decide) (by decide)
    (by simp) rfl rfl 1 0 (some (fun _ => (0 : ℚ), fun _ => 0))
  obtain ⟨uninit, junk, m0, h0, he⟩ := ha.built
  obtain rfl : m0 = m := by
    simp only [LMpc.exec, List.map_nil, Except.ok.injEq, Prod.mk.injEq] at he
    exact he.1
  obtain ⟨w, outs, hr, ho, g0, g1⟩ := one_linear (fun _ => "") (a := (sampleDims, uninit, junk)) h0
  obtain ⟨w', ms, f⟩ := linear_call (num := fun _ => "") {} g0 g1 ho ha.optimized
  exact ⟨_, w, w', outs, _, _, _, {}, r, call, ms, hr, f, Int.le_refl 0, Int.le_refl 0, Int.le_refl 0, rfl, rfl⟩

/-- C92 is violated for the nonlinear controller: the solver fails with an exception, and no error message is left. -/
theorem c92_nonlinear_violated : ∃ d num, ¬ C92Claim (nonlinearSpeaker d ℚ num) (failedN (K := ℚ)) := by
  refine ⟨dN, fun _ => "", fun hc => ?_⟩
  obtain ⟨m0, w, outs, hr, hm, ho, h0, h1⟩ := one_nonlinear fun _ => ""
  obtain ⟨m1, r1, call1, a1⟩ := hm.asks (x0 := nvec 2 fun _ => 0) (u0 := nvec 1 fun _ => 0) (oc := .threw) rfl rfl
    (by intro z v c t e; cases e) (by decide)
  obtain ⟨j1, s1, -⟩ := a1.junkless
  obtain ⟨w', ms, f⟩ := nonlinear_call (num := fun _ => "") {} h0 h1 ho s1
  obtain ⟨r, call, msg, hout, -, he, -, -⟩ := c92_nonlinear f
  refine hc _ _ _ hr 0 _ {} w' _ ms f ?_ he
  exact .inl (c48_failure_keeps_command a1 (by intro z v c e; cases e)).2.2.2.1

/-- Non-vacuity of `c92_nonlinear` and `c92_nonlinear_text`. -/
example : ∃ (acts : List (LAct (nonlinearKind dN ℚ))) (w w' : LogWorld (nonlinearKind dN ℚ)) (outs : _) (op : NlCall dN ℚ)
    (z : Vec ℚ) (x0 u0 : Vec ℚ) (cs : _) (junk : Nat → ℚ) (r : LResult ℚ) (call : _) (ms : List Msg),
    (LogWorld.empty _).run (nonlinearSpeaker dN ℚ fun _ => "") acts = .ok (w, outs) ∧
    op = .optimize x0 u0 cs (.answered z (.fin 7) 1 false) junk ∧
    w.step (nonlinearSpeaker dN ℚ fun _ => "") (.act (.call 0 op) {}) = .ok (w', some (.result r call), ms) ∧
    levelAt acts = .NORMAL ∧ streamAt acts = some 0 := by
  obtain ⟨m0, w, outs, hr, hm, ho, h0, h1⟩ := one_nonlinear fun _ => ""
  obtain ⟨m1, r1, call1, a1⟩ := hm.asks (x0 := nvec 2 fun _ => 0) (u0 := nvec 1 fun _ => 0)
    (oc := .answered (zN 0) (.fin 7) 1 false) rfl rfl (by intro z v c t e; cases e; rfl) (by decide)
  obtain ⟨j1, s1, -⟩ := a1.junkless
  obtain ⟨w', ms, f⟩ := nonlinear_call (num := fun _ => "") {} h0 h1 ho s1
  exact ⟨_, w, w', outs, _, _, _, _, _, j1, _, _, ms, hr, rfl, f, rfl, rfl⟩

end Props
end Mpc
