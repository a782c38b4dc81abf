import Verif.Proofs.MessageSteps
import Verif.Props.Instances

/-
C90, C91, C92: the log of a program with several controllers.
-/
namespace Mpc
open Mpc.Spec Exec
set_option linter.unusedSectionVars false
variable {k : Kind}

namespace Props

/-! ### C90 -/

section
variable {K : Type} [Field K] [DecidableEq K] [LinearOrder K] [IsStrictOrderedRing K]

/-- C90 as stated, for a class of controllers: in every program, a call which is refused, that is returns false or throws,
leaves an error message. -/
def C90Claim (sp : Speaker k) (refused : k.Out → Prop) : Prop :=
  ∀ (acts : List (LAct k)) w outs, (LogWorld.empty k).run sp acts = .ok (w, outs) →
    ∀ i op e w' out ms, w.step sp (.act (.call i op) e) = .ok (w', some out, ms) → refused out → errors ms ≠ []

/-- the messages of a call other than `optimize` -/
theorem linear_messages {num : Ext K → String} {w w' : LogWorld (linearKind K)} {i : Nat} {op : LOp K} {e : Said}
    {out : LOut K} {ms : List Msg} (h : w.step (linearSpeaker K num) (.act (.call i op) e) = .ok (w', some out, ms))
    (hn : ¬ Solves op) :
    (out ≠ .bool false ∧ ms = weave e.details []) ∨ (out = .bool false ∧ ms = weave e.details [⟨.ERROR, refusal op⟩]) := by
  obtain ⟨o, c, b, r, -, -, hv, hr, ho, hm⟩ := LogWorld.call_ok h
  have hb : b = o := hv (by cases op <;> first | rfl | exact absurd trivial hn)
  subst hb
  obtain ⟨p, hp, rfl⟩ := linearKind_step.mp hr
  cases ho
  rcases linear_speaks (num := num) (o := c.opt) (e := e) hn hp with ⟨h1, h2⟩ | ⟨h1, h2⟩
  · exact .inl ⟨h1, hm.trans (congrArg (weave e.details) h2)⟩
  · exact .inr ⟨h1, hm.trans (congrArg (weave e.details) h2)⟩

/-- C90 for the linear controller, partial: whatever the state of the program, a call other than `optimize` which returns false
leaves exactly one error message, which says what did not fit, and a call which does not return false leaves none. (Missing: the
calls which throw, which leave none either.) -/
theorem c90_linear_partial {num : Ext K → String} {w w' : LogWorld (linearKind K)} {i : Nat} {op : LOp K} {e : Said}
    {out : LOut K} {ms : List Msg} (h : w.step (linearSpeaker K num) (.act (.call i op) e) = .ok (w', some out, ms))
    (hn : ¬ Solves op) :
    (out = .bool false → errors ms = [⟨.ERROR, refusal op⟩]) ∧ (out ≠ .bool false → errors ms = []) := by
  rcases linear_messages h hn with ⟨h1, rfl⟩ | ⟨h1, rfl⟩
  · exact ⟨fun h => absurd h h1, fun _ => by rw [errors_weave]; rfl⟩
  · exact ⟨fun _ => by rw [errors_weave]; rfl, fun h => absurd h1 h⟩

/-- `optimize` of the linear controller returns a result and writes its report, after the error messages of OSQP -/
theorem linear_reports {num : Ext K → String} {w w' : LogWorld (linearKind K)} {i : Nat} {x0 u0 : Vec K}
    {oc : OsqpOutcome K} {e : Said} {out : Option (LOut K)} {ms : List Msg}
    (h : w.step (linearSpeaker K num) (.act (.call i (.optimize x0 u0 oc)) e) = .ok (w', out, ms)) :
    ∃ r call, out = some (.result r call) ∧ ms = weave e.details (flagMsg "Unable to setup " e.setupFlag
          ++ (if call.warm.isSome then flagMsg "Unable to warm start " e.warmFlag else [])
          ++ flagMsg "Unable to solve " e.solveFlag ++ [summary num e.duration r ""]) := by
  obtain ⟨o, c, b, r, -, -, -, hr, ho, hm⟩ := LogWorld.call_ok h
  obtain ⟨p, hp, rfl⟩ := linearKind_step.mp hr
  have hp : (LOpt.run _ _ x0 u0 oc >>= fun q => Except.ok (_, LOut.result _ _)) = Except.ok p := hp
  rw [bind_eq_ok] at hp
  obtain ⟨q, -, hp⟩ := hp
  cases hp
  exact ⟨_, _, ho, hm⟩

/-- C90 for the linear controller, partial: at level NORMAL or ALERT, the text of the stream in force grows by exactly one line
when a call is refused: the tag and the explanation; no other stream changes. -/
theorem c90_text_partial {num : Ext K → String} {acts : List (LAct (linearKind K))} {w w' : LogWorld (linearKind K)} {outs}
    {i : Nat} {op : LOp K} {e : Said} {ms : List Msg}
    (hr : (LogWorld.empty _).run (linearSpeaker K num) acts = .ok (w, outs))
    (h : w.step (linearSpeaker K num) (.act (.call i op) e) = .ok (w', some (.bool false), ms))
    (hl : levelAt acts = .NORMAL ∨ levelAt acts = .ALERT) (s : Nat) :
    w'.log.text s = w.log.text s ++ (if streamAt acts = some s then tag (prefixAt acts) ++ refusal op else "") := by
  have hn : ¬ Solves op := by
    intro hs
    cases op with
    | optimize x0 u0 oc =>
      obtain ⟨r, call, ho, -⟩ := linear_reports h
      cases ho
    | _ => exact hs
  rw [(act_text (run_text inForce_new hr).1 h).2 s]
  rcases linear_messages h hn with ⟨h1, -⟩ | ⟨-, rfl⟩
  · exact absurd rfl h1
  · rw [show ([] ++ acts) = acts from rfl]
    rw [shown_weave (by rcases hl with h | h <;> rw [h] <;> simp)]
    rcases hl with h | h <;> simp [shown, h, visible]

end

/-! ### programs to instantiate the theorems with -/

/-- two linear controllers, `details` of whatever kind -/
theorem two_linear (num : Ext ℚ → String) : ∃ (a : (linearKind ℚ).Args) (m0 : LMpc ℚ) (w : LogWorld (linearKind ℚ)),
    m0.d = sampleDims ∧ (LogWorld.empty _).run (linearSpeaker ℚ num) [.act (.create 0 a) {}, .act (.create 1 a) {}] =
      .ok (w, [(none, []), (none, [])]) ∧
    w.log.os = some 0 ∧ w.world.objs 0 = some ⟨(m0.d, m0.b), 0⟩ ∧ w.world.heap 0 = some ⟨m0.o, 0⟩ ∧
    w.world.objs 1 = some ⟨(m0.d, m0.b), 1⟩ ∧ w.world.heap 1 = some ⟨m0.o, 1⟩ := by
  obtain ⟨m, m', r, call, ha⟩ := sample_asked 1 0 none
  obtain ⟨uninit, junk, m0, h0, -⟩ := ha.built
  have hd : m0.d = sampleDims := by
    unfold LMpc.new at h0
    simp only [bind_eq_ok] at h0
    obtain ⟨b, -, h0⟩ := h0
    cases h0
    rfl
  have hb := linearKind_build (a := (sampleDims, uninit, junk)).2 ⟨m0, h0, rfl⟩
  have e1 := World.step_create (w := World.empty (linearKind ℚ)) (i := 0) rfl hb
  obtain ⟨l1, f1, o1⟩ := LogWorld.step_total (sp := linearSpeaker ℚ num) (e := {}) (w := LogWorld.empty (linearKind ℚ)) e1 (by
    intro h; cases h)
  have e2 := World.step_create (k := linearKind ℚ) (i := 1) (w := ⟨World.set (World.empty (linearKind ℚ)).objs 0
    (some ⟨(m0.d, m0.b), 0⟩), World.set (World.empty (linearKind ℚ)).heap 0 (some ⟨m0.o, 0⟩), 1⟩) rfl hb
  obtain ⟨l2, f2, o2⟩ := LogWorld.step_total (sp := linearSpeaker ℚ num) (e := {}) (w := ⟨_, l1⟩) e2 (by
    rw [o1]; intro h; cases h)
  have g1 := LogWorld.run_snoc (acts := []) (outs := []) (w := LogWorld.empty (linearKind ℚ)) rfl f1
  have g2 := LogWorld.run_snoc g1 f2
  exact ⟨_, m0, _, hd, g2, o2.trans o1, rfl, rfl, rfl, rfl⟩

/-- one linear controller -/
theorem one_linear (num : Ext ℚ → String) {a : Dims × (Nat → Nat → ℚ) × (Nat → Nat)} {m0 : LMpc ℚ}
    (h0 : LMpc.new a.1 a.2.1 a.2.2 = .ok m0) : ∃ (w : LogWorld (linearKind ℚ)) (outs : _),
    (LogWorld.empty _).run (linearSpeaker ℚ num) [.act (.create 0 a) {}] = .ok (w, outs) ∧
    w.log.os = some 0 ∧ w.world.objs 0 = some ⟨(m0.d, m0.b), 0⟩ ∧ w.world.heap 0 = some ⟨m0.o, 0⟩ := by
  have hb := linearKind_build (a := a).2 ⟨m0, h0, rfl⟩
  have e1 := World.step_create (w := World.empty (linearKind ℚ)) (i := 0) rfl hb
  obtain ⟨l1, f1, o1⟩ := LogWorld.step_total (sp := linearSpeaker ℚ num) (e := {}) (w := LogWorld.empty (linearKind ℚ)) e1 (by
    intro h; cases h)
  have g1 := LogWorld.run_snoc (acts := []) (outs := []) (w := LogWorld.empty (linearKind ℚ)) rfl f1
  exact ⟨_, _, g1, o1, rfl, rfl⟩

/-- a call on one of them -/
theorem linear_call {num : Ext ℚ → String} {w : LogWorld (linearKind ℚ)} {m : LMpc ℚ} {op : LOp ℚ} {m' : LMpc ℚ} {out}
    (e : Said) (h0 : w.world.objs 0 = some ⟨(m.d, m.b), 0⟩) (h1 : w.world.heap 0 = some ⟨m.o, 0⟩) (ho : w.log.os = some 0)
    (hs : m.step op = .ok (m', out)) : ∃ w' ms, w.step (linearSpeaker ℚ num) (.act (.call 0 op) e) = .ok (w', some out, ms) := by
  have hc : w.world.step (.call 0 op) = .ok (⟨World.set w.world.objs 0 (some ⟨(m'.d, m'.b), 0⟩),
      World.set w.world.heap 0 (some ⟨m'.o, 0⟩), w.world.fresh⟩, some out) := by
    have hk := linearKind_step (b := (m.d, m.b)) (o := m.o).2 ⟨_, hs, rfl⟩
    cases hv : (linearKind ℚ).viaOwner op with
    | false => exact World.step_call h0 h1 hv hk
    | true =>
      simp only [World.step, World.obj, h0, ok_bind, World.cell, h1, hv, if_true]
      rw [show (linearKind ℚ).step (m.d, m.b) m.o op = _ from hk]
      rfl
  obtain ⟨l, f, -⟩ := LogWorld.step_total (sp := linearSpeaker ℚ num) (e := e) hc (by rw [ho]; intro h; cases h)
  exact ⟨_, _, f⟩

/-- a nonlinear controller -/
theorem one_nonlinear (num : Ext ℚ → String) : ∃ (m0 : NlMpc dN ℚ) (w : LogWorld (nonlinearKind dN ℚ)) (outs : _),
    (LogWorld.empty _).run (nonlinearSpeaker dN ℚ num) [.act (.create 0 (fun _ => 0, false)) {}] = .ok (w, outs) ∧
    NlRan dN false [] [] m0 ∧
    w.log.os = some 0 ∧ w.world.objs 0 = some ⟨(), 0⟩ ∧ w.world.heap 0 = some ⟨m0, 0⟩ := by
  obtain ⟨m, hi, hm⟩ := dN_new
  have hb := nonlinearKind_build (a := (fun _ => (0 : ℚ), false)).2 ⟨m, hi, rfl⟩
  have e1 := World.step_create (w := World.empty (nonlinearKind dN ℚ)) (i := 0) rfl hb
  obtain ⟨l1, f1, o1⟩ := LogWorld.step_total (sp := nonlinearSpeaker dN ℚ num) (e := {})
    (w := LogWorld.empty (nonlinearKind dN ℚ)) e1 (by intro h; cases h)
  have g1 := LogWorld.run_snoc (acts := []) (outs := []) (w := LogWorld.empty (nonlinearKind dN ℚ)) rfl f1
  exact ⟨m, _, _, g1, hm, o1, rfl, rfl⟩

/-- a call on it -/
theorem nonlinear_call {d : Dims} {num : Ext ℚ → String} {w : LogWorld (nonlinearKind d ℚ)} {m : NlMpc d ℚ} {op : NlCall d ℚ}
    {m' : NlMpc d ℚ} {out} (e : Said) (h0 : w.world.objs 0 = some ⟨(), 0⟩) (h1 : w.world.heap 0 = some ⟨m, 0⟩)
    (ho : w.log.os = some 0) (hs : m.step op = .ok (m', out)) :
    ∃ w' ms, w.step (nonlinearSpeaker d ℚ num) (.act (.call 0 op) e) = .ok (w', some out, ms) := by
  have hc := World.step_call (k := nonlinearKind d ℚ) (op := op) h0 h1 rfl (nonlinearKind_step.2 ⟨_, hs, rfl⟩)
  obtain ⟨l, f, -⟩ := LogWorld.step_total (sp := nonlinearSpeaker d ℚ num) (e := e) hc (by rw [ho]; intro h; cases h)
  exact ⟨_, _, f⟩

/-! ### C90, continued -/

/-- C90 is violated for the linear controller: `setInputScale` throws and leaves no error message. -/
theorem c90_linear_violated : ∃ num, ¬ C90Claim (linearSpeaker ℚ num) (fun out : LOut ℚ => out = .bool false ∨ out = .threw) := by
  refine ⟨fun _ => "", fun hc => ?_⟩
  obtain ⟨a, m0, w, hd, hr, ho, h0, h1, -, -⟩ := two_linear fun _ => ""
  obtain ⟨w', ms, f⟩ := linear_call (num := fun _ => "") (op := .setInputScale (cvec 1 2)) {} h0 h1 ho rfl
  have h2 := (c90_linear_partial f (fun h => h)).2 (by intro h; cases h)
  exact hc _ _ _ hr 0 _ {} w' _ ms f (.inr rfl) h2

/-- Non-vacuity of `c90_linear_partial` and `c90_text_partial`: the index 7 is outside the prediction horizon 3. -/
example : ∃ (acts : List (LAct (linearKind ℚ))) (w w' : LogWorld (linearKind ℚ)) (outs : _) (op : LOp ℚ) (ms : List Msg),
    (LogWorld.empty _).run (linearSpeaker ℚ fun _ => "") acts = .ok (w, outs) ∧
    w.step (linearSpeaker ℚ fun _ => "") (.act (.call 0 op) {}) = .ok (w', some (.bool false), ms) ∧ ¬ Solves op ∧
    levelAt acts = .NORMAL ∧ streamAt acts = some 0 := by
  obtain ⟨a, m0, w, hd, hr, ho, h0, h1, -, -⟩ := two_linear fun _ => ""
  obtain ⟨w', ms, f⟩ := linear_call (num := fun _ => "") (m := m0) (m' := m0) (out := .bool false)
    (op := .setScalarConstraintAt 7 (.fin 0) (.fin 0) (cvec 2 0) (cvec 1 0)) {} h0 h1 ho (by
      show LMpc.setScalarConstraintAt _ _ _ _ _ _ = _
      unfold LMpc.setScalarConstraintAt
      rw [if_pos (by rw [hd]; decide)]
      rfl)
  exact ⟨_, w, w', _, _, ms, hr, f, fun h => h, rfl, rfl⟩

section
variable {d : Dims} {K : Type} [Field K] [LinearOrder K] [IsStrictOrderedRing K]

/-- C90 for the nonlinear controller, partial: whatever the state of the program, a call other than `optimize` and
`setStateSpaceFunction` which returns false or throws leaves exactly one error message, which says why, and one which does not
leaves none. `setStateSpaceFunction` never leaves one. (Missing: that function, when NLopt refuses the constraint.) -/
theorem c90_nonlinear_partial {num : Ext K → String} {w w' : LogWorld (nonlinearKind d K)} {i : Nat} {op : NlCall d K}
    {e : Said} {out : NlOut K} {ms : List Msg}
    (h : w.step (nonlinearSpeaker d K num) (.act (.call i op) e) = .ok (w', some out, ms)) (hn : ¬ NlSolves op) :
    (¬ SetsModel op → (out = .bool false ∨ out = .threw) → errors ms = [⟨.ERROR, nlRefusal op⟩]) ∧
    ((out ≠ .bool false ∧ out ≠ .threw) ∨ SetsModel op → errors ms = []) := by
  obtain ⟨o, c, b, r, -, -, -, hr, ho, rfl⟩ := LogWorld.call_ok h
  obtain ⟨p, hp, rfl⟩ := nonlinearKind_step.mp hr
  cases ho
  rw [errors_weave]
  by_cases hm : SetsModel op
  · refine ⟨fun hc => absurd hm hc, fun _ => ?_⟩
    cases op with
    | setStateSpaceFunction F tol acc => rfl
    | _ => exact absurd hm id
  · rcases nonlinear_speaks (num := num) (o := c.opt) (e := e) hn hm hp with ⟨h1, h2⟩ | ⟨h1, h2⟩
    · refine ⟨fun _ hc => ?_, fun _ => congrArg errors h2⟩
      rcases hc with hc | hc
      · exact absurd hc h1.1
      · exact absurd hc h1.2
    · refine ⟨fun _ _ => congrArg errors h2, fun hc => ?_⟩
      rcases hc with hc | hc
      · rcases h1 with h1 | h1
        · exact absurd h1 hc.1
        · exact absurd h1 hc.2
      · exact absurd hc hm

end

/-- C90 is violated for the nonlinear controller: when NLopt refuses the constraint, `setStateSpaceFunction` returns false and
leaves no error message. -/
theorem c90_nonlinear_violated : ∃ d num, ¬ C90Claim (nonlinearSpeaker d ℚ num) (fun out : NlOut ℚ => out = .bool false) := by
  refine ⟨dN, fun _ => "", fun hc => ?_⟩
  obtain ⟨m0, w, outs, hr, -, ho, h0, h1⟩ := one_nonlinear fun _ => ""
  obtain ⟨w', ms, f⟩ := nonlinear_call (num := fun _ => "") (op := .setStateSpaceFunction (fun x _ _ => x) 0 false)
    (out := .bool false) {} h0 h1 ho rfl
  exact hc _ _ _ hr 0 _ {} w' _ ms f rfl ((c90_nonlinear_partial f (fun h => h)).2 (.inr trivial))

/-- Non-vacuity of `c90_nonlinear_partial`: `setOutputBounds` throws, and the message says why. -/
example : ∃ (w w' : LogWorld (nonlinearKind dN ℚ)) (op : NlCall dN ℚ) (ms : List Msg),
    w.step (nonlinearSpeaker dN ℚ fun _ => "") (.act (.call 0 op) {}) = .ok (w', some .threw, ms) ∧
    ¬ NlSolves op ∧ ¬ SetsModel op ∧ errors ms = [⟨.ERROR, nlRefusal op⟩] := by
  obtain ⟨m0, w, outs, hr, -, ho, h0, h1⟩ := one_nonlinear fun _ => ""
  obtain ⟨w', ms, f⟩ := nonlinear_call (num := fun _ => "") (op := .setOutputBounds ⟨0, 0, fun _ _ => .fin 0⟩ ⟨0, 0, fun _ _ => .fin 0⟩)
    (out := .threw) {} h0 h1 ho rfl
  exact ⟨w, w', _, ms, f, fun h => h, fun h => h, (c90_nonlinear_partial f (fun h => h)).1 (fun h => h) (.inr rfl)⟩

end Props
end Mpc
