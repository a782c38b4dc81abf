import Verif.Model.NlOptimizeCalls

/-
User functions with memory of their own: counters, caches, recorded data, a random generator, a clock. Such a function answers
depending on what it remembers, and changes it with every call. The programs of NlCalls.lean and NlOptimizeCalls.lean are run with
them; what the functions remember is threaded through the calls (IDimensionable.hpp:86-149: `std::function` objects, copied once when
they are set and then called in place, so they may own or refer to mutable data).

Simplifications: one memory `σ` for all user functions (which may share data). They return, and do not call the controller.
One `f` for a whole history: the functions a setter receives only decide whether a function is set. (`f` may change with the number of
calls it remembers, as it does when a setter replaces a function.)
-/
namespace Mpc
open Exec
set_option linter.unusedSectionVars false
variable {d : Dims} {K : Type} {α σ : Type}

/-- user functions with memory `σ`: what is remembered afterwards, and the answer (IDimensionable.hpp:86-149) -/
abbrev Stateful (d : Dims) (K σ : Type) := σ → (c : UserCall d K) → σ × c.Ans

namespace Prog

/-- running a program: the result, what is remembered at the end, and the calls made -/
def runWith (f : Stateful d K σ) : σ → Prog d K α → Exec α × σ × List (UserCall d K)
  | s, done r => (r, s, [])
  | s, ask c k =>
    let a := f s c
    let r := runWith f a.1 (k a.2)
    (r.1, r.2.1, c :: r.2.2)

end Prog

namespace NlMpc
variable [Field K] [LinearOrder K]

/-- an API call as a program: only `optimize` calls user functions (NLMPC.hpp:38-440; setters store them) -/
def stepP (m : NlMpc d K) : NlCall d K → Prog d K (NlMpc d K × NlOut K)
  | .optimize x0 u0 cs oc junk => m.optimizeP x0 u0 cs oc junk
  | op => .done (m.step op)

/-- a history of API calls on a new controller as a program, as `NlMpc.run` -/
def runP (d : Dims) (junk : Nat → K) (dynamic : Bool) (ops : List (NlCall d K)) : Prog d K (NlMpc d K × List (NlOut K)) :=
  ops.foldl (fun e c => e >>= fun q => do
    let r ← q.1.stepP c
    return (r.1, q.2 ++ [r.2])) (do
      let m ← init d junk dynamic
      return (m, []))

end NlMpc
end Mpc
