import Verif.Spec.NlOptimal
import Verif.Props.NlFunctions

/-
Specification: a nonlinear controller in closed loop with a plant which behaves like the configured model, and the usual
conditions on the configuration (stage costs, stage constraints, terminal cost and constraint).
-/
namespace Mpc.NlSpec
open Mpc.Spec (within)
variable {K : Type} {d : Dims} [Field K] [LinearOrder K]

/-- the answer `z` to `call` can be used, and no other usable vector is better by more than `ε` -/
structure SolverNear (o : NlOpt K) (s : NlState d K) (call : NlSolverCall K) (ε : K) (z : Vec K) : Prop where
  feasible : SolverFeasible o s call z
  near : ∀ z', SolverFeasible o s call z' → ∀ w w' j j' v v' G G' s1 s2, NlMpc.serve o s (.obj z w j) = .ok (some (.obj v G), s1) →
    NlMpc.serve o s (.obj z' w' j') = .ok (some (.obj v' G'), s2) → v ≤ v' + ε

/-- what happens in one step of a loop: measured state, last command, callbacks made by the solver and its outcome, contents of
fresh memory, the result, what the solver was given, and the reported sequences of states and inputs -/
structure Turn (K : Type) where
  x : Vec K
  u : Vec K
  cs : List (NlCallback K)
  oc : NlOutcome K
  junk : Nat → K
  r : LResult K
  call : NlSolverCall K
  X : Mat K
  U : Mat K

/-- the calls made on the controller before step `t`: the configuration, then `optimize` in every step -/
def turnOps (ops : List (NlCall d K)) (T : Nat → Turn K) : Nat → List (NlCall d K)
  | 0 => ops
  | t + 1 => turnOps ops T t ++ [.optimize (T t).x (T t).u (T t).cs (T t).oc (T t).junk]

/-- what they returned -/
def turnOuts (outs : List (NlOut K)) (T : Nat → Turn K) : Nat → List (NlOut K)
  | 0 => outs
  | t + 1 => turnOuts outs T t ++ [.result (T t).r (T t).call]

/-- `N` steps of the loop with the plant `P`: the command of every step is applied to the plant and is the last command of the
next step, which starts from the state the plant has reached. -/
structure Loop [IsStrictOrderedRing K] (d : Dims) (dyn : Bool) (ops : List (NlCall d K)) (outs : List (NlOut K))
    (P : FVec d.nx K → FVec d.nu K → FVec d.nx K) (T : Nat → Turn K) (N : Nat) : Prop where
  asked : ∀ t, t < N → ∃ m m', Props.NlAsked d dyn (turnOps ops T t) (turnOuts outs T t) (T t).x (T t).u (T t).cs (T t).oc
    m m' (T t).r (T t).call ∧ m'.o.seqState = (T t).X ∧ m'.o.seqInput = (T t).U
  applied : ∀ t b, t < N → b < d.nu → (T (t + 1)).u.get b = (T t).r.cmd.get b
  plant : ∀ t (a : Fin d.nx), t < N →
    (T (t + 1)).x.get a = P (fun a => (T t).x.get a) (fun b => (T t).r.cmd.get b) a

/-- a vector which satisfies what the solver was given in step `t` exists -/
def CanSolve [IsStrictOrderedRing K] (d : Dims) (dyn : Bool) (ops : List (NlCall d K)) (outs : List (NlOut K)) (T : Nat → Turn K) (t : Nat) :
    Prop :=
  ∃ m cs s z, Props.InSolver d dyn (turnOps ops T t) (turnOuts outs T t) m (T t).x cs s ∧ SolverFeasible m.o s (T t).call z

/-- in step `t` the solver answers with a vector which satisfies what it was given -/
def Answers [IsStrictOrderedRing K] (d : Dims) (dyn : Bool) (ops : List (NlCall d K)) (outs : List (NlOut K)) (T : Nat → Turn K) (t : Nat) :
    Prop :=
  ∃ z value code m cs s, (T t).oc = .answered z value code false ∧
    Props.InSolver d dyn (turnOps ops T t) (turnOuts outs T t) m (T t).x cs s ∧ SolverFeasible m.o s (T t).call z

/-- in step `t` the solver answers with a usable vector, and none is better by more than `ε` -/
def Solves [IsStrictOrderedRing K] (d : Dims) (dyn : Bool) (ops : List (NlCall d K)) (outs : List (NlOut K)) (T : Nat → Turn K) (ε : K)
    (t : Nat) : Prop :=
  ∃ z value code m cs s, (T t).oc = .answered z value code false ∧
    Props.InSolver d dyn (turnOps ops T t) (turnOuts outs T t) m (T t).x cs s ∧ SolverNear m.o s (T t).call ε z

/-- The configured problem: a discrete model which does not depend on the step and has to be satisfied exactly, limits which do
not get looser along the horizon, an objective made of costs `l` of the steps and a cost `V` of the last state, and user
constraints which ask `Stage` of every step and `End` of the last state. -/
structure Staged (ops : List (NlCall d K)) (outs : List (NlOut K)) (F : FVec d.nx K → FVec d.nu K → FVec d.nx K)
    (l : FVec d.nx K → FVec d.nu K → K) (V : FVec d.nx K → K) (Stage : FVec d.nx K → FVec d.nu K → Prop) (End : FVec d.nx K → Prop) :
    Prop where
  model : last modelTolOf ops = some (fun x u _ => F x u, 0)
  discrete : last samplingOf ops = none
  states : ∀ k a v, k + 1 < d.ph → a < d.nx → within (stateLimits ops outs (k + 1) a).1 (stateLimits ops outs (k + 1) a).2 v →
    within (stateLimits ops outs k a).1 (stateLimits ops outs k a).2 v
  inputs : ∀ j b v, j + 1 < d.ch → b < d.nu → within (inputLimits ops outs (j + 1) b).1 (inputLimits ops outs (j + 1) b).2 v →
    within (inputLimits ops outs j b).1 (inputLimits ops outs j b).2 v
  cost : ∃ f, last objectiveOf ops = some f ∧ ∀ X U, f X (outputs (last outputOf ops) X U) U 0 =
    ∑ k : Fin d.ph, l (X k.castSucc) (U k.castSucc) + V (X (Fin.last d.ph))
  constraints : ∀ X U,
    ((∀ G tol, last ineqConOf ops = some (G, tol) → ∀ i, G X (outputs (last outputOf ops) X U) U 0 i ≤ tol) ∧
      ∀ G tol, last eqConOf ops = some (G, tol) → ∀ i, |G X U i| ≤ tol) ↔
    (∀ k : Fin d.ph, Stage (X k.castSucc) (U k.castSucc)) ∧ End (X (Fin.last d.ph))

/-- the state `x` respects the limits of the last step and the terminal constraint -/
def AtEnd (ops : List (NlCall d K)) (outs : List (NlOut K)) (End : FVec d.nx K → Prop) (x : FVec d.nx K) : Prop :=
  End x ∧ ∀ a : Fin d.nx, within (stateLimits ops outs (d.ph - 1) a).1 (stateLimits ops outs (d.ph - 1) a).2 (x a)

/-- the input `u` respects the limits of the last input of the control horizon -/
def InputOk (ops : List (NlCall d K)) (outs : List (NlOut K)) (u : FVec d.nu K) : Prop :=
  ∀ b : Fin d.nu, within (inputLimits ops outs (d.ch - 1) b).1 (inputLimits ops outs (d.ch - 1) b).2 (u b)

/-- From every state allowed at the end of the horizon an allowed input leads to another one (the same input when the horizon
freezes the last ones). -/
def EndKept (ops : List (NlCall d K)) (outs : List (NlOut K)) (F : FVec d.nx K → FVec d.nu K → FVec d.nx K)
    (Stage : FVec d.nx K → FVec d.nu K → Prop) (End : FVec d.nx K → Prop) : Prop :=
  ∀ x v, AtEnd ops outs End x → InputOk ops outs v →
    ∃ w, InputOk ops outs w ∧ Stage x w ∧ AtEnd ops outs End (F x w) ∧ (d.ch < d.ph → w = v)

/-- ... and the terminal cost pays for it. -/
def EndPays (ops : List (NlCall d K)) (outs : List (NlOut K)) (F : FVec d.nx K → FVec d.nu K → FVec d.nx K)
    (l : FVec d.nx K → FVec d.nu K → K) (V : FVec d.nx K → K) (Stage : FVec d.nx K → FVec d.nu K → Prop)
    (End : FVec d.nx K → Prop) : Prop :=
  ∀ x v, AtEnd ops outs End x → InputOk ops outs v →
    ∃ w, InputOk ops outs w ∧ Stage x w ∧ AtEnd ops outs End (F x w) ∧ (d.ch < d.ph → w = v) ∧ l x w + V (F x w) ≤ V x

end Mpc.NlSpec
