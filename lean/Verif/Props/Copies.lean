import Verif.Proofs.Copies
import Verif.Props.Uncopied

/-
C139: a nonlinear controller and its copies are one controller with several names.
-/
namespace Mpc.Props
open Mpc.Spec Mpc.NlSpec Exec World
set_option linter.unusedSectionVars false

variable {d : Dims} {K : Type} [Field K] [LinearOrder K] [IsStrictOrderedRing K]

theorem nonlinear_byPointer : ByPointer (nonlinearKind d K) := ⟨fun _ => rfl, fun _ => rfl, fun _ => rfl, fun _ _ => rfl⟩

section
variable {ops : List (WOp (nonlinearKind d K))} {w : World (nonlinearKind d K)} {outs : List (Option (NlOut K))}

/-- C139: in every program, copies and assignments included, every nonlinear controller goes through the states and gives the answers of a
program in which it is alone and which makes the calls made by any of its names; every name shows the state of its controller. -/
theorem c139_alone (hr : (World.empty (nonlinearKind d K)).run ops = .ok (w, outs)) :
    ∃ state : Nat → Option (Unit × NlMpc d K),
      (∀ p, aloneRun (k := nonlinearKind d K) none (Names.start.steps p ops) = .ok (state p, Names.start.rets p ops outs)) ∧
      ∀ i, w.view i = ((Names.start.afterAll ops).of i).bind state :=
  have h := run_named (k := nonlinearKind d K) (b := ()) nonlinear_byPointer named_empty hr
  ⟨w.numbered (k := nonlinearKind d K) (), h.2, h.1.view nonlinear_byPointer⟩

/-- C139: two names of one controller show the same. -/
theorem c139_names (hr : (World.empty (nonlinearKind d K)).run ops = .ok (w, outs)) {i j : Nat}
    (h : (Names.start.afterAll ops).of i = (Names.start.afterAll ops).of j) : w.view i = w.view j := by
  obtain ⟨state, -, hv⟩ := c139_alone hr
  rw [hv, hv, h]

/-- C139: a step which does not concern a controller leaves what all its names show. -/
theorem c139_frame (hr : (World.empty (nonlinearKind d K)).run ops = .ok (w, outs)) {op : WOp (nonlinearKind d K)} {r}
    (hs : w.step op = .ok r) {i p : Nat} (hi : (Names.start.afterAll ops).of i = some p)
    (hi' : ((Names.start.afterAll ops).after op).of i = some p) (hn : ¬ (Names.start.afterAll ops).concerns p op) :
    r.1.view i = w.view i := by
  have h := (run_named (b := ()) nonlinear_byPointer named_empty hr).1
  obtain ⟨h1, h2⟩ := step_named (b := ()) nonlinear_byPointer h hs
  rw [h1.view (b := ()) nonlinear_byPointer i, h.view (b := ()) nonlinear_byPointer i, hi, hi']
  exact (h2 p).2 hn

/-- C139: a program which uses names of existing controllers only, and in which every controller alone, called by any of its names, would
run, runs. -/
theorem c139_runs (hu : Names.start.UsableAll ops)
    (ha : ∀ p, ∃ q, aloneRun (k := nonlinearKind d K) none (Names.start.steps p ops) = .ok q) :
    ∃ q, (World.empty (nonlinearKind d K)).run ops = .ok q :=
  run_usable (b := ()) nonlinear_byPointer named_empty hu ha

theorem alone_renamed {k : Kind} {i : Nat} : ∀ (calls : List (Nat × k.Op)) (s : Option (k.Body × k.Opt)),
    aloneRun s (calls.map fun c => WOp.call c.1 c.2) = aloneRun s ((calls.map Prod.snd).map fun op => WOp.call i op)
  | [], s => rfl
  | c :: calls, s => by
    have e : aloneStep s (.call c.1 c.2) = aloneStep s (.call i c.2) := by cases s <;> rfl
    simp only [List.map_cons, aloneRun, e]
    refine congrArg _ (funext fun r => ?_)
    rw [alone_renamed (i := i) calls r.1]

/-- C139: a nonlinear controller which is still alive has the state and the answers of a history of the calls made by any of its names, so
that everything proved about such histories holds of it and of all its copies. -/
theorem c139_history (hr : (World.empty (nonlinearKind d K)).run ops = .ok (w, outs)) {p i : Nat} {junk : Nat → K} {dyn : Bool}
    {calls : List (Nat × NlCall d K)}
    (hp : Names.start.steps p ops = .create i (junk, dyn) :: calls.map fun c => .call c.1 c.2)
    (hd : HorizonsOk d) (hm : d.ph * d.nx + d.nu * d.ch + 1 ≤ 2 ^ 64) (hs : ∀ c ∈ calls, CallFits d c.2) :
    ∃ m outs', NlRan d dyn (calls.map Prod.snd) outs' m ∧ Names.start.rets p ops outs = none :: outs'.map some ∧
      ∀ j, (Names.start.afterAll ops).of j = some p → w.view j = some ((), m) := by
  obtain ⟨state, h1, h2⟩ := c139_alone hr
  have h := h1 p
  rw [hp] at h
  have h3 : aloneRun (k := nonlinearKind d K) none (.create i (junk, dyn) :: (calls.map Prod.snd).map fun op => .call i op) =
      .ok (state p, Names.start.rets p ops outs) := by
    refine Eq.trans ?_ h
    simp only [aloneRun]
    cases aloneStep (k := nonlinearKind d K) none (.create i (junk, dyn)) with
    | error e => rfl
    | ok r =>
      simp only [ok_bind]
      exact congrArg (· >>= _) (alone_renamed (k := nonlinearKind d K) (i := i) calls r.1).symm
  obtain ⟨m, outs', g1, g2, g3⟩ := alone_history h3 hd hm (fun op ho => by
    obtain ⟨c, hc, rfl⟩ := List.mem_map.1 ho
    exact hs c hc)
  refine ⟨m, outs', g1, g2, fun j hj => ?_⟩
  rw [h2, hj, ← g3]
  rfl

end

/-- C139: the same within user functions: a nonlinear controller which the functions of another one construct, copy and call by any of its
names. -/
theorem c139_inside {d' : Dims} {τ : Type} {f : Nested d K (nonlinearKind d' K) τ} {w0 : World (nonlinearKind d' K)} {t0 : τ}
    {i : Inner (nonlinearKind d' K) τ} {before : List (WOp (nonlinearKind d' K))} {outs0 : List (Option (nonlinearKind d' K).Out)}
    {dyn : Bool} {ops outs es m}
    (h0 : (World.empty (nonlinearKind d' K)).run before = .ok (w0, outs0))
    (h : UnRan f.insider (.ok ⟨w0, t0, []⟩) dyn ops outs es m (.ok i)) {p n : Nat} {junk : Nat → K} {dyn' : Bool}
    {calls : List (Nat × NlCall d' K)}
    (hp : Names.start.steps p (before ++ i.past.map Prod.fst) = .create n (junk, dyn') :: calls.map fun c => .call c.1 c.2)
    (hd : HorizonsOk d') (hm : d'.ph * d'.nx + d'.nu * d'.ch + 1 ≤ 2 ^ 64) (hs : ∀ c ∈ calls, CallFits d' c.2) :
    ∃ m outs', NlRan d' dyn' (calls.map Prod.snd) outs' m ∧
      Names.start.rets p (before ++ i.past.map Prod.fst) (outs0 ++ i.past.map Prod.snd) = none :: outs'.map some ∧
      ∀ j, (Names.start.afterAll (before ++ i.past.map Prod.fst)).of j = some p → i.world.view j = some ((), m) :=
  c139_history (World.run_append h0 (c137_program h)) hp hd hm hs

/-- two controllers, a copy of the first, and a call of the copy -/
def copiedProgram : List (WOp (nonlinearKind dN ℚ)) :=
  [.create 0 (fun _ => 0, false), .copy 0 1, .create 2 (fun _ => 0, false), .call 1 (NlCall.setDiscretizationSamplingTime 1)]

/-- A controller is copied and called by the name of the copy: both names show the state of the history of this call, and a controller
constructed in between is not concerned. -/
example : ∃ (w : World (nonlinearKind dN ℚ)) (outs : _),
    (World.empty (nonlinearKind dN ℚ)).run copiedProgram = .ok (w, outs) ∧
    (∃ m outs', NlRan dN false [.setDiscretizationSamplingTime 1] outs' m ∧ w.view 0 = some ((), m) ∧ w.view 1 = some ((), m)) ∧
    ∃ m outs', NlRan dN false [] outs' m ∧ w.view 2 = some ((), m) := by
  obtain ⟨m0, h0, -⟩ := dN_new
  have hb : (nonlinearKind dN ℚ).build (fun _ => 0, false) = .ok ((), m0) := nonlinearKind_build.2 ⟨m0, h0, rfl⟩
  obtain ⟨q, hq⟩ : ∃ q, (nonlinearKind dN ℚ).step () m0 (.setDiscretizationSamplingTime 1) = .ok q := ⟨_, rfl⟩
  have a0 : aloneRun (k := nonlinearKind dN ℚ) none [.create 0 (fun _ => 0, false), .call 1 (.setDiscretizationSamplingTime 1)] =
      .ok (some (q.1, q.2.1), [none, some q.2.2]) :=
    aloneRun_create.2 ⟨_, hb, (some (q.1, q.2.1), [some q.2.2]), aloneRun_call.2 ⟨q, hq, _, rfl, rfl⟩, rfl⟩
  have a1 : aloneRun (k := nonlinearKind dN ℚ) none [.create 2 (fun _ => 0, false)] = .ok (some ((), m0), [none]) := by
    simp only [aloneRun, aloneStep, hb, ok_bind]; rfl
  have s0 : Names.start.steps 0 copiedProgram =
      [WOp.create (k := nonlinearKind dN ℚ) 0 (fun _ => 0, false), .call 1 (.setDiscretizationSamplingTime 1)] := by
    simp [copiedProgram, Names.steps, Names.concerns, Names.after, Names.start]
  have s1 : Names.start.steps 1 copiedProgram = [WOp.create (k := nonlinearKind dN ℚ) 2 (fun _ => 0, false)] := by
    simp [copiedProgram, Names.steps, Names.concerns, Names.after, Names.start]
  obtain ⟨⟨w, outs⟩, e⟩ := c139_runs (d := dN) (K := ℚ) (ops := copiedProgram) (by simp [copiedProgram, Names.UsableAll, Names.Usable, Names.after, Names.start]) (fun p => by
    by_cases e0 : p = 0
    · subst e0; rw [s0]; exact ⟨_, a0⟩
    by_cases e1 : p = 1
    · subst e1; rw [s1]; exact ⟨_, a1⟩
    · refine ⟨(none, []), ?_⟩
      have : Names.start.steps p copiedProgram = ([] : List (WOp (nonlinearKind dN ℚ))) := by
        simp [copiedProgram, Names.steps, Names.concerns, Names.after, Names.start, Ne.symm e0, Ne.symm e1]
      rw [this]; rfl)
  refine ⟨w, outs, e, ?_, ?_⟩
  · obtain ⟨m, outs', h1, -, h2⟩ := c139_history e (p := 0) (i := 0) (junk := fun _ => 0) (dyn := false)
      (calls := [(1, .setDiscretizationSamplingTime 1)]) s0 ⟨by decide, by decide, by decide⟩ (by decide)
      (fun c hc => by rw [List.mem_singleton.1 hc]; trivial)
    exact ⟨m, outs', h1, h2 0 (by simp [copiedProgram, Names.afterAll, Names.after, Names.start]), h2 1 (by simp [copiedProgram, Names.afterAll, Names.after, Names.start])⟩
  · obtain ⟨m, outs', h1, -, h2⟩ := c139_history e (p := 1) (i := 2) (junk := fun _ => 0) (dyn := false)
      (calls := []) s1 ⟨by decide, by decide, by decide⟩ (by decide) (fun c hc => by cases hc)
    exact ⟨m, outs', h1, h2 2 (by simp [copiedProgram, Names.afterAll, Names.after, Names.start])⟩

end Mpc.Props
