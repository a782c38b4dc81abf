import Verif.Model.Profiler
import Verif.Model.NLMPC

/-
Model of the part of /repo/include/mpc/IMPC.hpp which is common to both controllers and records the execution
statistics: a controller together with its profiler (IMPC.hpp:292-293). The controller itself is a parameter: `step`
performs one API call, `status` is the status of the result when the call returned one (that is, for `optimize`).
A call which leaves with an exception returns no result; the profiler is then left as it was (for `optimize` the code has
read the start of the interval by then, which the next `optimize` overwrites). The log output is omitted.
-/
namespace Mpc
open Exec
noncomputable section

/-- A call through the interface with the two clock readings `optimize` makes (IMPC.hpp:149-168); `resetStats`
(IMPC.hpp:214-217). -/
inductive IOp (Op : Type) where
  | call (op : Op) (start stop : ℝ)
  | resetStats

/-- controller and profiler (IMPC.hpp:292-293) -/
structure WithStats (M : Type) where
  ctl : M
  prof : Profiler

namespace WithStats
variable {M Op Out : Type}

/-- One call. For `optimize` (IMPC.hpp:149-168): `solutionStart`, the run, `solutionEnd` with the status of the result.
The other calls do not touch the profiler. -/
def step (stepC : M → Op → Exec (M × Out)) (status : Out → Option ResultStatus) (big : ℝ) (c : WithStats M) :
    IOp Op → Exec (WithStats M × Option Out)
  | .call op start stop => do
    let r ← stepC c.ctl op
    match status r.2 with
    | none => return (⟨r.1, c.prof⟩, some r.2)
    | some st => do
      let p := c.prof.solutionStart start
      let q ← p.solutionEnd stop st
      return (⟨r.1, q.1⟩, some r.2)
  | .resetStats => .ok (⟨c.ctl, c.prof.reset big⟩, none)

/-- a history of calls with everything they returned -/
def exec (stepC : M → Op → Exec (M × Out)) (status : Out → Option ResultStatus) (big : ℝ) (c : WithStats M) :
    List (IOp Op) → Exec (WithStats M × List (Option Out))
  | [] => .ok (c, [])
  | op :: ops => do
    let r ← c.step stepC status big op
    let s ← exec stepC status big r.1 ops
    return (s.1, r.2 :: s.2)

end WithStats

/-- status of the result an API call of the linear controller returned (IMPC.hpp:155) -/
def LOut.status {K : Type} : LOut K → Option ResultStatus
  | .result r _ => some r.status
  | _ => none

/-- status of the result an API call of the nonlinear controller returned (IMPC.hpp:155) -/
def NlOut.status {K : Type} : NlOut K → Option ResultStatus
  | .result r _ => some r.status
  | _ => none

end
end Mpc
