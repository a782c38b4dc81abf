import Verif.Model.ProgramsEnv
import Verif.Spec.Programs
import Verif.Spec.Environment

/-
Programs whose user functions read variables: what they may rely on.
-/
namespace Mpc.Spec
variable {E K : Type} [Field K]

/-- an event as documented: sizes, and `optimize` returns what `getLastResult` shows -/
structure EnvEventOk (d : Dims) (e : Event (E × EnvCall E d K) (NlOut K) K) : Prop where
  fits : ShownFits d e.shows
  result : ∀ v op out, e.call = some ((v, op), out) → NlSpec.reports op = true → ∃ call, out = .result e.shows.last call
  only : ∀ v x u vs en j r call, e.call = some ((v, .optimize x u vs en j), .result r call) → r = e.shows.last

/-- As long as the controller behaves as documented, the program only makes legal calls; the output function does not throw. -/
def EnvCareful (d : Dims) (dyn : Bool) (p : EnvProgram E d K) : Prop :=
  ∀ past, (∀ e ∈ past, EnvEventOk d e) → ∀ v op, p past = some (v, op) →
    NlSpec.TCallFits d (op.frozen v) ∧ NlSpec.TAdmissible d dyn (op.frozen v) ∧ NlSpec.escapes (op.frozen v) = false

end Mpc.Spec
