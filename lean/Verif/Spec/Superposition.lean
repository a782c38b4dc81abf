import Verif.Spec.Tracking

/-
Specification: what the linear controller is asked with - the measured state, the last command, references and
disturbances - apart from the plant, the weights and the limits.
-/
namespace Mpc.Spec
variable {K : Type} [Field K]

/-- the signals: measured state, last command, and the references and disturbances of every step -/
inductive Signal where
  | state
  | command
  | yRef (k : Nat)
  | uRef (k : Nat)
  | duRef (k : Nat)
  | dist (k : Nat)

/-- a value for every component of every signal; these form a vector space -/
abbrev Signals (K : Type) := Signal → Nat → K

/-- the same plant, weights and limits with other references and disturbances -/
def LinConfig.withSignals (c : LinConfig K) (s : Signals K) : LinConfig K :=
  { c with yRef := fun k => s (.yRef k), uRef := fun k => s (.uRef k), duRef := fun k => s (.duRef k),
           dist := fun k => s (.dist k) }

/-- no limit on states, commands, outputs and the scalar constraint at any step of the horizon -/
structure Unlimited (d : Dims) (c : LinConfig K) : Prop where
  xMin : ∀ k a, k < d.ph → a < d.nx → c.xMin k a = .negInf
  xMax : ∀ k a, k < d.ph → a < d.nx → c.xMax k a = .posInf
  uMin : ∀ k a, k < d.ph → a < d.nu → c.uMin k a = .negInf
  uMax : ∀ k a, k < d.ph → a < d.nu → c.uMax k a = .posInf
  yMin : ∀ k a, k < d.ph → a < d.ny → c.yMin k a = .negInf
  yMax : ∀ k a, k < d.ph → a < d.ny → c.yMax k a = .posInf
  sMin : ∀ k, k < d.ph → c.sMin k = .negInf
  sMax : ∀ k, k < d.ph → c.sMax k = .posInf

/-- A controller is asked with the signals `s` if they are its references and disturbances, and the measured state and last
command of the call; otherwise it is configured as in `c`. -/
structure AskedWith (d : Dims) (c : LinConfig K) (s : Signals K) (configured : LinConfig K) (x0 u0 : Nat → K) : Prop where
  config : (c.withSignals s).Agree d configured
  state : ∀ a, a < d.nx → x0 a = s .state a
  command : ∀ a, a < d.nu → u0 a = s .command a

end Mpc.Spec
