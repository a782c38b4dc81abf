import Verif.Model.Programs
import Verif.Spec.NlApi
import Verif.Props.LinearRun
import Verif.Proofs.LinAccept

/-
Programs which use a controller: what they may rely on.
-/
namespace Mpc.Spec
variable {K : Type}

/-- everything the getters show has the documented size: a command for every input; states, inputs and outputs of the steps
0 to `ph` -/
structure ShownFits (d : Dims) (s : Shown K) : Prop where
  cmd : s.last.cmd.size = d.nu
  states : s.states.rows = d.ph + 1 ∧ s.states.cols = d.nx
  inputs : s.inputs.rows = d.ph + 1 ∧ s.inputs.cols = d.nu
  outputs : s.outputs.rows = d.ph + 1 ∧ s.outputs.cols = d.ny

/-- an event as the documentation says, for the linear controller: sizes, `optimize` returns what
`getLastResult` shows, and setters with slices inside the horizon return true -/
structure LEventOk [Zero K] [One K] [Add K] [Mul K] [Neg K] [Div K] [NatCast K] (d : Dims) (e : Event (LOp K) (LOut K) K) : Prop where
  fits : ShownFits d e.shows
  result : ∀ x u oc out, e.call = some (.optimize x u oc, out) → ∃ call, out = .result e.shows.last call
  accepted : ∀ op out, e.call = some (op, out) → LMpc.Accepts d op → out = .bool true

/-- the same for the nonlinear controller -/
structure NlEventOk [Field K] (d : Dims) (e : Event (NlCall d K) (NlOut K) K) : Prop where
  fits : ShownFits d e.shows
  result : ∀ x u cs oc j out, e.call = some (.optimize x u cs oc j, out) → ∃ call, out = .result e.shows.last call

/-- As long as the controller behaves as documented, the program only makes legal calls: arguments of the right sizes, and
none of the calls of C57 (whole-horizon input bounds with different horizons, parameters of the nonlinear controller, too
short warm starts, a problem which OSQP rejects). -/
def LCareful [Field K] (d : Dims) (p : LProgram K) : Prop :=
  ∀ past, (∀ e ∈ past, LEventOk d e) → ∀ op, p past = some op → Sized d op ∧ SliceNonneg op ∧ Props.Harmless d op

/-- the same for the nonlinear controller (see C59) -/
def NlCareful [Field K] (d : Dims) (dyn : Bool) (p : NlProgram d K) : Prop :=
  ∀ past, (∀ e ∈ past, NlEventOk d e) → ∀ op, p past = some op → NlSpec.CallFits d op ∧ NlSpec.Admissible d dyn [] op

/-- the solver is given vectors of the right size and answers with such -/
def RunFits (d : Dims) (s : SolverRun K) : Prop :=
  (∀ c ∈ s.evaluations, NlSpec.CallbackFits d c) ∧ ∀ z v c t, s.outcome = .answered z v c t → z.size = d.ph * d.nx + d.nu * d.ch + 1

end Mpc.Spec
