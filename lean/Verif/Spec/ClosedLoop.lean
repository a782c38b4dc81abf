import Verif.Spec.Tracking

/-
Specification: a linear controller in closed loop with a plant which behaves like the configured model.
-/
namespace Mpc.Spec
variable {K : Type} [Field K]

/-- the calls made on the controller before step `t`: the configuration, then `optimize` in every step -/
def loopOps (ops : List (LOp K)) (x u : Nat → Vec K) (oc : Nat → OsqpOutcome K) : Nat → List (LOp K)
  | 0 => ops
  | t + 1 => loopOps ops x u oc t ++ [.optimize (x t) (u t) (oc t)]

/-- what they returned -/
def loopOuts (outs : List (LOut K)) (r : Nat → LResult K) (call : Nat → OsqpCall K) : Nat → List (LOut K)
  | 0 => outs
  | t + 1 => loopOuts outs r call t ++ [.result (r t) (call t)]

/-- `N` steps of the loop: in step `t` the controller is asked about the state `x t` and the last command `u t`, it returns
`r t` and the sequences `seq t`; the command is applied to the plant, with the disturbance the controller was told for the
first step. -/
structure ClosedLoop [DecidableEq K] (d : Dims) (ops : List (LOp K)) (outs : List (LOut K)) (x u : Nat → Vec K)
    (oc : Nat → OsqpOutcome K) (r : Nat → LResult K) (call : Nat → OsqpCall K) (seq : Nat → Mat K × Mat K × Mat K) (N : Nat) :
    Prop where
  asked : ∀ t, t < N → ∃ m m', Asked d (loopOps ops x u oc t) (loopOuts outs r call t) (x t) (u t) (oc t) m m' (r t) (call t) ∧
    m'.getOptimalSequence = seq t
  applied : ∀ t a, t < N → a < d.nu → (u (t + 1)).get a = (r t).cmd.get a
  plant : ∀ t a, t < N → a < d.nx → (x (t + 1)).get a = dot d.nx ((configOf ops outs).A a) (x t).get +
    dot d.nu ((configOf ops outs).B a) (r t).cmd.get + dot d.ndu ((configOf ops outs).Bd a) ((configOf ops outs).dist 0)

/-- the solver hands back an exact solution in every step -/
def AllExact [LE K] (oc : Nat → OsqpOutcome K) (call : Nat → OsqpCall K) (N : Nat) : Prop :=
  ∀ t, t < N → ∃ st obj z y, oc t = .answered st obj (some (z, y)) ∧ qpOptimal (call t) z

end Mpc.Spec
