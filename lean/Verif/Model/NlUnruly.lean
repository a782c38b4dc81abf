import Verif.Model.NlStateful

/-
User functions with memory of their own which may also throw (exceptions derived from `std::exception`): each call may change what is
remembered, and then answers or throws, for the same arguments now this and then that. Throwing.lean says where exceptions are caught
(NLOptimizer.hpp:502, 509, 534-545) and where they are not (NLOptimizer.hpp:591), NlStateful.lean how the memory is threaded.

Beside each `optimize` comes an `NlWork`: what an evaluation which an exception has left leaves in the members it works on.
The flag of the solver's outcome which says that the check throws is not looked at: the functions decide.

The functions may also ask the controller they are called by for its reports (a lambda may capture it): `getLastResult` and
`getOptimalSequence` (IMPC.hpp:173-186) return copies of members of the optimizer, which `run` writes at NLOptimizer.hpp:589-608. They do
not call any other function of the controller.
-/
namespace Mpc
open Exec
set_option linter.unusedSectionVars false
variable {d : Dims} {K : Type} {α σ : Type}

/-- what `getLastResult` and `getOptimalSequence` return (IMPC.hpp:173-186): `NLOptimizer::result` and `sequence` -/
structure NlView (K : Type) where
  result : LResult K
  states : Mat K
  inputs : Mat K
  outputs : Mat K

/-- IMPC.hpp:173-186 -/
def NlOpt.view (o : NlOpt K) : NlView K := ⟨o.result, o.seqState, o.seqInput, o.seqOutput⟩

/-- user functions with memory `σ`: what is remembered afterwards, and the answer, or none for an exception (IDimensionable.hpp:86-149) -/
abbrev Unruly (d : Dims) (K σ : Type) := σ → (c : UserCall d K) → σ × Option c.Ans

/-- user functions which may also ask their controller for its reports -/
abbrev Insider (d : Dims) (K σ : Type) := NlView K → Unruly d K σ

namespace Prog

/-- Running a program until it ends or a function throws: the result, or the call which threw; what is remembered; and the calls made,
with `true` for one which threw. -/
def attemptWith (f : Unruly d K σ) : Prog d K α → σ → (Exec α ⊕ UserCall d K) × σ × List (UserCall d K × Bool)
  | done r, s => (.inl r, s, [])
  | ask c k, s =>
    match f s c with
    | (s', none) => (.inr c, s', [(c, true)])
    | (s', some a) =>
      let r := attemptWith f (k a) s'
      (r.1, r.2.1, (c, false) :: r.2.2)

end Prog

namespace NlMpc
variable [Field K] [LinearOrder K]

/-- NLOptimizer.hpp:534-545, 596-608: an exception was caught; the result, and how the call ended -/
def abandon (m : NlMpc d K) (call : NlSolverCall K) (e : NlEnding K) : NlMpc d K × NlOut K × NlEnding K :=
  let m := { m with o := m.o.failed d }
  (m, .result m.o.result call, e)

/-- NLOptimizer.hpp:577-591: what was written when the output function throws at line 591 -/
def leave (m : NlMpc d K) (x0 : Vec K) (z : Vec K) (junk : Nat → K) : Exec (NlMpc d K × NlOut K × NlEnding K) := do
  let w ← m.s.mp.unwrapVector m.o.optVector x0 ⟨d.ph + 1, d.nx, fun i _ => junk i⟩ ⟨d.ph + 1, d.nu, fun i _ => junk i⟩
  let st ← w.1.block 0 0 (d.ph + 1) d.nx
  let inp ← w.2.1.block 0 0 (d.ph + 1) d.nu
  return ({ m with o := { m.o with currentSlack := w.2.2, seqState := st, seqInput := inp } }, .threw, .outputThrows z)

/-- NLOptimizer.hpp:577-591, after the check, whose result is in `feas`. The output function is called (line 591) when states and inputs
of the sequence are written already (lines 589-590), and outputs and result not yet. -/
def reportW (f : Insider d K σ) (m : NlMpc d K) (call : NlSolverCall K) (x0 z : Vec K) (value : Ext K) (code : Int) (feas : Bool)
    (junk : Nat → K) (s : σ) : Exec (NlMpc d K × NlOut K × NlEnding K) × σ × List (UserCall d K × Bool) :=
  match leave m x0 z junk with
  | .error e => (.error e, s, [])
  | .ok r =>
    match (m.acceptP x0 value code feas junk).attemptWith (f r.1.o.view) s with
    | (.inr _, s', l) => (.ok r, s', l)
    | (.inl (.error e), s', l) => (.error e, s', l)
    | (.inl (.ok m), s', l) => (.ok (m, .result m.o.result call, .returns z value code), s', l)

/-- NLOptimizer.hpp:503-591: the solver has answered `z` -/
def checkW (f : Insider d K σ) (w : NlWork K) (m : NlMpc d K) (call : NlSolverCall K) (x0 z : Vec K) (value : Ext K) (code : Int)
    (junk : Nat → K) (s : σ) : Exec (NlMpc d K × NlOut K × NlEnding K) × σ × List (UserCall d K × Bool) :=
  let m := { m with o := { m.o with optVector := z, first := false } }
  match (m.s.con.isFeasibleP m.s.mp m.s.M z).attemptWith (f m.o.view) s with
  | (.inr _, s', l) => (.ok (abandon { m with s := m.s.interrupted w } call (.checkThrows z w)), s', l)
  | (.inl (.error e), s', l) => (.error e, s', l)
  | (.inl (.ok g), s', l) =>
    let r := reportW f { m with s := { m.s with con := g.2 } } call x0 z value code g.1 junk s'
    (r.1, r.2.1, l ++ r.2.2)

/-- NLOptimizer.hpp:502-608, from the solver's search on; `oc` is how the search ends if no callback throws -/
def searchW (f : Insider d K σ) (w : NlWork K) (m : NlMpc d K) (call : NlSolverCall K) (x0 : Vec K) (cs : List (NlCallback K))
    (oc : NlOutcome K) (junk : Nat → K) (s : σ) : Exec (NlMpc d K × NlOut K × NlEnding K) × σ × List (UserCall d K × Bool) :=
  match (callbacksP m.o m.s cs).attemptWith (f m.o.view) s with
  | (.inr _, s', l) => (.ok (abandon { m with s := m.s.interrupted w } call .solverThrows), s', l)
  | (.inl (.error e), s', l) => (.error e, s', l)
  | (.inl (.ok st), s', l) =>
    match oc with
    | .threw => (.ok (abandon { m with s := st } call .solverThrows), s', l)
    | .answered z value code _ =>
      let r := checkW f w { m with s := st } call x0 z value code junk s'
      (r.1, r.2.1, l ++ r.2.2)

/-- `IMPC::optimize` (IMPC.hpp:149-168) with `NLOptimizer::run` (NLOptimizer.hpp:409-608) -/
def optimizeW (f : Insider d K σ) (w : NlWork K) (m : NlMpc d K) (x0 u0 : Vec K) (cs : List (NlCallback K)) (oc : NlOutcome K)
    (junk : Nat → K) (s : σ) : Exec (NlMpc d K × NlOut K × NlEnding K) × σ × List (UserCall d K × Bool) :=
  match (do let m ← m.onState (.measure x0); let p ← m.o.prepare d m.s.mp junk x0 u0; return (m, p)) with
  | .error e => (.error e, s, [])
  | .ok (m, p) => searchW f w { m with o := { m.o with optVector := p.1 } } (m.solverCall p.2) x0 cs oc junk s

/-- an API call (NLMPC.hpp:38-440; setters store functions, and call none): the controller, what it returns, and the call with how it
ended -/
def stepW (f : Insider d K σ) (w : NlWork K) (m : NlMpc d K) (op : NlCall d K) (s : σ) :
    Exec (NlMpc d K × NlOut K × NlTCall d K) × σ × List (UserCall d K × Bool) :=
  match op with
  | .optimize x0 u0 cs oc junk =>
    let r := m.optimizeW f w x0 u0 cs oc junk s
    (r.1.map fun q => (q.1, q.2.1, .optimize x0 u0 [] q.2.2 junk), r.2)
  | op => ((m.step op).map fun q => (q.1, q.2, .call op), s, [])

/-- a history of API calls on a new controller, as `NlMpc.run`: the controller, what the calls returned, how they ended; what is
remembered; and the calls of the user functions -/
def runW (f : Insider d K σ) (s : σ) (junk : Nat → K) (dynamic : Bool) (ops : List (NlCall d K × NlWork K)) :
    Exec (NlMpc d K × List (NlOut K) × List (NlTCall d K)) × σ × List (UserCall d K × Bool) :=
  ops.foldl (fun q op => match q with
    | (.error e, s, l) => (.error e, s, l)
    | (.ok (m, outs, es), s, l) =>
      let r := m.stepW f op.2 op.1 s
      (r.1.map fun a => (a.1, outs ++ [a.2.1], es ++ [a.2.2]), r.2.1, l ++ r.2.2))
    ((init d junk dynamic).map fun m => (m, [], []), s, [])

end NlMpc
end Mpc
