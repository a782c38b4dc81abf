import Verif.Model.NlProblem
import Verif.Spec.NlFun

/-
Specification of what a history of operations configures: the last value set of everything. Evaluations configure
nothing. (Of the model only the type of operations is used.)
-/
namespace Mpc.NlSpec

variable {K : Type} {d : Dims}

/-- configuration of the nonlinear problem -/
structure Cfg (d : Dims) (K : Type) where
  inScale : Nat → K
  stScale : Nat → K
  cont : Bool
  Ts : K
  field : Option (FVec d.nx K → FVec d.nu K → Nat → FVec d.nx K)
  out : Option (OutFn d K)
  obj : Option (ObjFn d K)
  ineq : Option (Traj (d.ph + 1) d.nx K → Traj (d.ph + 1) d.ny K → Traj (d.ph + 1) d.nu K → K → FVec d.ineq K)
  eq : Option (Traj (d.ph + 1) d.nx K → Traj (d.ph + 1) d.nu K → FVec d.eq K)
  /-- measured state, once there is one -/
  x0 : Option (Nat → K)

/-- initial configuration -/
def Cfg.fresh [One K] (d : Dims) (cont : Bool) (Ts : K) : Cfg d K :=
  ⟨fun _ => 1, fun _ => 1, cont, Ts, none, none, none, none, none, none⟩

/-- configuration after one more operation -/
def Cfg.step (c : Cfg d K) : NlOp d K → Cfg d K
  | .inputScaling v => { c with inScale := v.get }
  | .stateScaling v => { c with stScale := v.get }
  | .continuous b Ts => { c with cont := b, Ts := Ts }
  | .stateFn F => { c with field := some F }
  | .outFn g => { c with out := some g }
  | .objFn f => { c with obj := some f }
  | .ineqFn F _ => { c with ineq := some F }
  | .eqFn F _ => { c with eq := some F }
  | .measure x => { c with x0 := some x.get }
  | .evalObj _ _ | .evalIneq _ _ | .evalEq _ _ | .evalDyn _ _ _ => c

/-- configuration after a history -/
def cfgOf [One K] (d : Dims) (cont : Bool) (Ts : K) (ops : List (NlOp d K)) : Cfg d K :=
  ops.foldl Cfg.step (Cfg.fresh d cont Ts)

/-- arguments have the sizes their parameter types prescribe -/
def OpFits (d : Dims) : NlOp d K → Prop
  | .inputScaling v => v.size = d.nu
  | .stateScaling v => v.size = d.nx
  | .measure x => x.size = d.nx
  | .evalObj z _ => z.size = d.ph * d.nx + d.nu * d.ch + 1
  | .evalIneq z _ => z.size = d.ph * d.nx + d.nu * d.ch + 1
  | .evalEq z _ => z.size = d.ph * d.nx + d.nu * d.ch + 1
  | .evalDyn z _ _ => z.size = d.ph * d.nx + d.nu * d.ch + 1
  | _ => True

/-- the documented state sequence for decision vector `z` and measured state `x0` -/
def docStates [Field K] (d : Dims) (s x0 z : Nat → K) : Traj (d.ph + 1) d.nx K := fun k a => stateAt d s x0 z k a

/-- the sequences satisfy the model: `x_{k+1} = f(x_k, u_k)`, or the trapezoidal rule for a continuous model -/
def SatisfiesModel [Field K] (cont : Bool) (Ts : K) (F : FVec d.nx K → FVec d.nu K → Nat → FVec d.nx K)
    (X : Traj (d.ph + 1) d.nx K) (U : Traj (d.ph + 1) d.nu K) : Prop :=
  ∀ (k : Fin d.ph) (a : Fin d.nx),
    if cont then
      X k.succ a = X k.castSucc a + Ts / 2 * (F (X k.castSucc) (U k.castSucc) k a + F (X k.succ) (U k.castSucc) k a)
    else X k.succ a = F (X k.castSucc) (U k.castSucc) k a

/-- `G` is the derivative of the affine dependence of `n` values on the `N` decision variables: the change of the
values between `z` and `z'` is `G (z' - z)`; row `c` of `G` starts at position `c * N` -/
def ExactRows [Field K] (N n : Nat) (z z' val val' G : Nat → K) : Prop :=
  ∀ c, c < n → val' c - val c = ∑ v ∈ Finset.range N, G (c * N + v) * (z' v - z v)

end Mpc.NlSpec

namespace Mpc.NlSpec
variable {K : Type} {d : Dims}

/-- the model is affine: `f(x, u, k) = c_k + A_k x + B_k u` -/
def AffineModel [Field K] (F : FVec d.nx K → FVec d.nu K → Nat → FVec d.nx K) (c : Nat → Nat → K)
    (A B : Nat → Nat → Nat → K) : Prop :=
  ∀ x u k (r : Fin d.nx), F x u k r = c k r + ∑ a : Fin d.nx, A k r a * x a + ∑ b : Fin d.nu, B k r b * u b

end Mpc.NlSpec
