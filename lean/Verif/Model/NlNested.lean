import Verif.Model.NlUnruly
import Verif.Model.Instances

/-
User functions of a nonlinear controller which use other controllers: a lambda may capture any object of the program, so that a cost may
ask an inner controller for its command (hierarchical control), configure it, construct or destroy one, as often as it likes and
depending on what it has been returned. The inner controllers live in a `World` (Instances.lean) of controllers (of one class, or of several as in Mixed.lean); the outer
controller is not among them, so that a function does not call the controller it is called by, except for its reports (NlUnruly.lean).

Simplifications: an inner step which faults (undefined behaviour, a failed assertion, an exception other than those of an inner solver,
which the inner controller catches) ends the use of the inner controllers: it leaves the function, and every later call, like an
exception; what was done before is no more known. The inner solver's answer is part of the call, as everywhere.
-/
namespace Mpc
open Exec
set_option linter.unusedSectionVars false
variable {d : Dims} {K : Type} {k : Kind} {β τ : Type}

/-- code which works with controllers of the class `k` (not code of the project: what a user may write with its API) -/
inductive Routine (k : Kind) (β : Type) where
  | done (b : β)
  | act (op : WOp k) (next : Option k.Out → Routine k β)

/-- running it: what it ends with, the controllers then, and what it did with what was returned (semantics of C++ statements, no code of
the project) -/
def Routine.exec : Routine k β → World k → Exec (β × World k × List (WOp k × Option k.Out))
  | .done b, w => .ok (b, w, [])
  | .act op next, w => do
    let r ← w.step op
    let q ← (next r.2).exec r.1
    return (q.1, q.2.1, (op, r.2) :: q.2.2)

/-- the inner controllers, what the functions remember otherwise, and all that was done with the controllers so far -/
structure Inner (k : Kind) (τ : Type) where
  world : World k
  own : τ
  past : List (WOp k × Option k.Out)

/-- user functions (IDimensionable.hpp:86-149) which use other controllers, remember, throw and ask for the reports of their own
controller -/
abbrev Nested (d : Dims) (K : Type) (k : Kind) (τ : Type) := NlView K → τ → (c : UserCall d K) → Routine k (τ × Option c.Ans)

/-- the same as functions with a memory (NlUnruly.lean), which is the inner controllers with the rest -/
def Nested.insider (f : Nested d K k τ) : Insider d K (Exec (Inner k τ)) := fun V s c =>
  match s with
  | .error e => (.error e, none)
  | .ok i =>
    match (f V i.own c).exec i.world with
    | .error e => (.error e, none)
    | .ok r => (.ok ⟨r.2.1, r.1.1, i.past ++ r.2.2⟩, r.1.2)

end Mpc
