import Mathlib.Data.List.FinRange
import Verif.Model.NlCalls
import Verif.Spec.NlFun
import Verif.Spec.NlLast

/-
Which calls of user functions an evaluation makes: states `X`, inputs `U` and slack `e` of the decision vector, and the points next
to it where difference quotients are taken. `F` answers the calls; `hasOut`: an output function is set.
-/
namespace Mpc.NlSpec
open Mpc
variable {d : Dims} {K : Type}

/-- the outputs along the horizon -/
def outputsBy [Zero K] (F : ∀ c : UserCall d K, c.Ans) (hasOut : Bool) (X : Traj (d.ph + 1) d.nx K) (U : Traj (d.ph + 1) d.nu K) :
    Traj (d.ph + 1) d.ny K :=
  fun k => if hasOut then (F (.out (X k) (U k) k) : FVec d.ny K) else fun _ => 0

/-- the output function at all steps, in order -/
def outCalls (hasOut : Bool) (X : Traj (d.ph + 1) d.nx K) (U : Traj (d.ph + 1) d.nu K) : List (UserCall d K) :=
  if hasOut then (List.finRange (d.ph + 1)).map fun (k : Fin (d.ph + 1)) => .out (X k) (U k) k else []

/-- the outputs, then the objective -/
def objCalls [Zero K] (F : ∀ c : UserCall d K, c.Ans) (hasOut : Bool) (X : Traj (d.ph + 1) d.nx K) (U : Traj (d.ph + 1) d.nu K) (e : K) :
    List (UserCall d K) :=
  outCalls hasOut X U ++ [.obj X (outputsBy F hasOut X U) U e]

/-- the outputs, then the inequality constraints -/
def ineqCalls [Zero K] (F : ∀ c : UserCall d K, c.Ans) (hasOut : Bool) (X : Traj (d.ph + 1) d.nx K) (U : Traj (d.ph + 1) d.nu K) (e : K) :
    List (UserCall d K) :=
  outCalls hasOut X U ++ [.ineq X (outputsBy F hasOut X U) U e]

variable [Field K] [LinearOrder K]

/-- one point after the other: every entry of the states after the measured one, moved by the amounts `t` -/
def overStates (X : Traj (d.ph + 1) d.nx K) (t : Nat → Nat → List K) (at_ : Traj (d.ph + 1) d.nx K → List (UserCall d K)) :
    List (UserCall d K) :=
  (List.range d.ph).flatMap fun k => (List.range d.nx).flatMap fun a => (t k a).flatMap fun δ => at_ (bump X (k + 1) a δ)

/-- every entry of the first `n` inputs -/
def overInputs (n : Nat) (U : Traj (d.ph + 1) d.nu K) (t : Nat → List K) (at_ : Traj (d.ph + 1) d.nu K → List (UserCall d K)) :
    List (UserCall d K) :=
  (List.range n).flatMap fun k => (List.range d.nu).flatMap fun b => (t b).flatMap fun δ => at_ (bump U k b δ)

/-- every component of the last two inputs, moved together -/
def overLastInputs (U : Traj (d.ph + 1) d.nu K) (t : Nat → List K) (at_ : Traj (d.ph + 1) d.nu K → List (UserCall d K)) :
    List (UserCall d K) :=
  (List.range d.nu).flatMap fun b => (t b).flatMap fun δ => at_ (bump (bump U (d.ph - 1) b δ) d.ph b δ)

/-- a point before and a point behind -/
def bothSides (t : K) : List K := [t, -t]

/-- the calls for the value of the objective and, if the solver wants it, the gradient: forward quotients, for the slack central -/
def objectiveTrace (F : ∀ c : UserCall d K, c.Ans) (hasOut : Bool) (X : Traj (d.ph + 1) d.nx K) (U : Traj (d.ph + 1) d.nu K) (e : K)
    (gradient : Bool) : List (UserCall d K) :=
  objCalls F hasOut X U e ++
    if gradient then
      overStates X (fun _ a => [stepOf (1 / 1000000) (linear X a)]) (fun X => objCalls F hasOut X U e) ++
      overInputs (d.ph - 1) U (fun b => [stepOf (1 / 1000000) (linear U b)]) (fun U => objCalls F hasOut X U e) ++
      overLastInputs U (fun b => [stepOf (1 / 1000000) (linear U b)]) (fun U => objCalls F hasOut X U e) ++
      (bothSides (max (1 / 1000000) |e| * (1 / 1000000))).flatMap (fun t => objCalls F hasOut X U (e + t))
    else []

/-- the calls for the inequality constraints: value, then central quotients -/
def ineqTrace (F : ∀ c : UserCall d K, c.Ans) (hasOut : Bool) (X : Traj (d.ph + 1) d.nx K) (U : Traj (d.ph + 1) d.nu K) (e : K) :
    List (UserCall d K) :=
  ineqCalls F hasOut X U e ++
  overStates X (fun _ a => bothSides (stepOf (1 / 67108864) (linear X a))) (fun X => ineqCalls F hasOut X U e) ++
  overInputs d.ph U (fun b => bothSides (stepOf (1 / 67108864) (linear U b))) (fun U => ineqCalls F hasOut X U e) ++
  (bothSides (max (1 / 67108864) |e| * (1 / 67108864))).flatMap (fun t => ineqCalls F hasOut X U (e + t))

/-- the calls for the equality constraints: value, then central quotients -/
def eqTrace (X : Traj (d.ph + 1) d.nx K) (U : Traj (d.ph + 1) d.nu K) : List (UserCall d K) :=
  [.eq X U] ++
  overStates X (fun k a => bothSides (stepOf (1 / 67108864) (entry X (k + 1) a))) (fun X => [.eq X U]) ++
  overInputs (d.ph - 1) U (fun b => bothSides (stepOf (1 / 67108864) (entry U (d.ph - 1) b))) (fun U => [.eq X U]) ++
  overLastInputs U (fun b => bothSides (stepOf (1 / 67108864) (entry U (d.ph - 1) b))) (fun U => [.eq X U])

/-- central quotients of the model at one state and input -/
def modelProbes (x : FVec d.nx K) (u : FVec d.nu K) (k : Nat) : List (UserCall d K) :=
  (List.finRange d.nx).flatMap (fun (a : Fin d.nx) => (bothSides (stepOf (1 / 67108864) (x a))).map fun t => .state (bumpV x a t) u k) ++
  (List.finRange d.nu).flatMap (fun (b : Fin d.nu) => (bothSides (stepOf (1 / 67108864) (u b))).map fun t => .state x (bumpV u b t) k)

/-- the calls for the state equation: step after step; a continuous-time model at both ends of the step -/
def modelTrace (cont : Bool) (X : Traj (d.ph + 1) d.nx K) (U : Traj (d.ph + 1) d.nu K) (gradient : Bool) : List (UserCall d K) :=
  (List.finRange d.ph).flatMap fun (k : Fin d.ph) =>
    (UserCall.state (X k.castSucc) (U k.castSucc) k :: if cont then [UserCall.state (X k.succ) (U k.castSucc) k] else []) ++
    if gradient then
      modelProbes (X k.castSucc) (U k.castSucc) k ++ if cont then modelProbes (X k.succ) (U k.castSucc) k else []
    else []

/-- the user functions which are set last answer as `F` -/
structure SetFunctions (ops : List (NlCall d K)) (F : ∀ c : UserCall d K, c.Ans) : Prop where
  state : ∀ G, last modelOf ops = some G → ∀ x u k, G x u k = F (.state x u k)
  out : ∀ G, last outputOf ops = some G → ∀ x u k, G (fun _ => 0) x u k = F (.out x u k)
  obj : ∀ G, last objectiveOf ops = some G → ∀ X Y U e, G X Y U e = F (.obj X Y U e)
  ineq : ∀ G tol, last ineqConOf ops = some (G, tol) → ∀ X Y U e, G X Y U e = F (.ineq X Y U e)
  eq : ∀ G tol, last eqConOf ops = some (G, tol) → ∀ X U, G X U = F (.eq X U)

/-- the inputs which the call is shown are held from the last step of the control horizon on -/
def Held : UserCall d K → Prop
  | .obj _ _ U _ | .ineq _ _ U _ | .eq _ U => ∀ k k' : Fin (d.ph + 1), d.ch ≤ k + 1 → d.ch ≤ k' + 1 → U k = U k'
  | .state _ _ _ | .out _ _ _ => True

/-- the call is shown the state `x` at step 0 -/
def ShowsMeasured (x : FVec d.nx K) : UserCall d K → Prop
  | .obj X _ _ _ | .ineq X _ _ _ | .eq X _ => X 0 = x
  | .state x' _ k | .out x' _ k => k = 0 → x' = x

end Mpc.NlSpec
