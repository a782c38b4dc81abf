import Verif.Props.Copies

/-
C75 with copies: which optimizers of nonlinear controllers are allocated.
-/
namespace Mpc.Props
open Mpc.Spec Exec World
set_option linter.unusedSectionVars false

variable {d : Dims} {K : Type} [Field K] [LinearOrder K] [IsStrictOrderedRing K]

/-- the step destroys a controller -/
def Destroys {k : Kind} : WOp k → Prop
  | .destroy _ => True
  | _ => False

theorem aloneStep_alive {k : Kind} {s op r} (h : aloneStep (k := k) s op = .ok r) : r.1.isSome = true ↔ ¬ Destroys op := by
  cases s with
  | none =>
    cases op with
    | create i a =>
      simp only [aloneStep, bind_eq_ok] at h
      obtain ⟨q, -, he⟩ := h
      cases he
      simp [Destroys]
    | _ => cases h
  | some s =>
    cases op with
    | call i op =>
      simp only [aloneStep, bind_eq_ok] at h
      obtain ⟨q, -, he⟩ := h
      cases he
      simp [Destroys]
    | destroy i =>
      cases h
      simp [Destroys]
    | _ => cases h

theorem aloneRun_alive {k : Kind} : ∀ {ops : List (WOp k)} {s r}, aloneRun s ops = .ok r → ops ≠ [] →
    (r.1.isSome = true ↔ ∃ op, ops.getLast? = some op ∧ ¬ Destroys op)
  | [], _, _, _, h => absurd rfl h
  | [op], s, r, h, _ => by
    simp only [aloneRun, bind_eq_ok] at h
    obtain ⟨q, hq, t, ht, he⟩ := h
    cases ht
    cases he
    simp [aloneStep_alive hq]
  | op :: op' :: ops, s, r, h, _ => by
    simp only [aloneRun, bind_eq_ok] at h
    obtain ⟨q, -, t, ht, he⟩ := h
    cases he
    have := aloneRun_alive (ops := op' :: ops) (s := q.1) (r := t) (by simp only [aloneRun, bind_eq_ok]; exact ht) (by simp)
    rw [List.getLast?_cons_cons]
    exact this

variable {ops : List (WOp (nonlinearKind d K))} {w : World (nonlinearKind d K)} {outs : List (Option (NlOut K))}

/-- C75, partial, for the nonlinear controller: in every program, copies and assignments included, an optimizer is allocated exactly from its
construction to the destruction of its controller by whichever name, and destroying a name does not fault exactly as long as its controller
was not destroyed by another name. (Missing: what a user expects, that every name can be destroyed once and that an optimizer without names
is released: violated.) -/
theorem c75_names_partial (hr : (World.empty (nonlinearKind d K)).run ops = .ok (w, outs)) :
    (∀ p, (w.heap p).isSome = true ↔ ∃ op, (Names.start.steps p ops).getLast? = some op ∧ ¬ Destroys op) ∧
    ∀ i p, (Names.start.afterAll ops).of i = some p → ((∃ r, w.step (.destroy i) = .ok r) ↔
      ∃ op, (Names.start.steps p ops).getLast? = some op ∧ ¬ Destroys op) := by
  obtain ⟨hn, h⟩ := run_named (k := nonlinearKind d K) (b := ()) nonlinear_byPointer named_empty hr
  have alive : ∀ p, (w.heap p).isSome = true ↔ ∃ op, (Names.start.steps p ops).getLast? = some op ∧ ¬ Destroys op := fun p => by
    have e : (w.heap p).isSome = (w.numbered (k := nonlinearKind d K) () p).isSome := by
      unfold World.numbered
      cases w.heap p <;> rfl
    rw [e]
    by_cases hs : Names.start.steps p ops = []
    · have h := h p
      rw [hs] at h
      have h1 : none = w.numbered (k := nonlinearKind d K) () p := congrArg Prod.fst (Except.ok.inj h)
      rw [← h1, hs]
      simp
    · exact aloneRun_alive (h p) hs
  refine ⟨alive, fun i p hi => ?_⟩
  rw [← alive p]
  rw [← hn.ptr i] at hi
  cases ho : w.objs i with
  | none => rw [ho] at hi; cases hi
  | some o =>
    rw [ho] at hi
    have e : o.ptr = p := Option.some.inj hi
    cases hc : w.heap o.ptr with
    | none =>
      rw [World.step_destroy_twice (k := nonlinearKind d K) rfl ho hc, ← e, hc]
      simp
    | some c =>
      rw [World.step_destroy (k := nonlinearKind d K) rfl ho hc, ← e, hc]
      simp

/-- C75 as stated for the nonlinear controller: what is allocated belongs to a controller which exists. -/
def C75OwnedClaim (K : Type) [Field K] [LinearOrder K] : Prop :=
  ∀ (d : Dims) (ops : List (WOp (nonlinearKind d K))) w outs, (World.empty _).run ops = .ok (w, outs) →
    ∀ p, (w.heap p).isSome = true → ∃ i o, w.objs i = some o ∧ o.ptr = p

/-- C75 is violated: an assignment to a nonlinear controller loses the optimizer it had, which is never released. -/
theorem c75_assign_violated : ¬ C75OwnedClaim ℚ := by
  intro hc
  obtain ⟨m, hi, -⟩ := dN_new
  have hb : (nonlinearKind dN ℚ).build (fun _ => 0, false) = .ok ((), m) := nonlinearKind_build.2 ⟨m, hi, rfl⟩
  have e1 := run_snoc (ops := []) (outs := []) rfl (World.step_create (w := World.empty (nonlinearKind dN ℚ)) (i := 0) rfl hb)
  have e2 := run_snoc e1 (World.step_create (i := 1) rfl hb)
  have e3 := run_snoc e2 (op := .assign 1 0) rfl
  obtain ⟨i, o, h1, h2⟩ := hc _ _ _ _ e3 0 rfl
  have h1 : (if i = 0 then some ⟨(), 1⟩ else if i = 1 then some ⟨(), 1⟩ else if i = 0 then some ⟨(), 0⟩ else none) = some o := h1
  split at h1
  · cases h1; cases h2
  · split at h1
    · cases h1; cases h2
    · cases h1

/-- After a copy one of the two names can be destroyed. -/
example : ∃ (w : World (nonlinearKind dN ℚ)) (outs : _),
    (World.empty (nonlinearKind dN ℚ)).run [.create 0 (fun _ => 0, false), .copy 0 1] = .ok (w, outs) ∧
    (w.heap 0).isSome = true ∧ ∃ r, w.step (.destroy 1) = .ok r := by
  obtain ⟨m, hi, -⟩ := dN_new
  obtain ⟨w, e, -, -, -⟩ := copied (a := (fun _ => 0, false)) hi
  obtain ⟨h1, h2⟩ := c75_names_partial e
  have hs : ∃ op, (Names.start.steps 0 [WOp.create (k := nonlinearKind dN ℚ) 0 (fun _ => 0, false), .copy 0 1]).getLast? = some op ∧
      ¬ Destroys op := ⟨.create 0 (fun _ => 0, false), by simp [Names.steps, Names.concerns, Names.after, Names.start], fun h => h⟩
  exact ⟨w, _, e, (h1 0).2 hs, (h2 1 0 (by simp [Names.afterAll, Names.after, Names.start])).2 hs⟩

end Mpc.Props
