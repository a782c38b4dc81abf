import Mathlib.Algebra.BigOperators.Group.Finset.Basic
import Mathlib.Algebra.Field.Defs
import Mathlib.Algebra.Order.Field.Basic
import Mathlib.Data.Fintype.BigOperators
import Verif.Model.NlModel
import Verif.Spec.Nlp

/-
Specification vocabulary for the functions of the nonlinear problem: sequences as functions on steps and
components, outputs along the horizon, perturbed sequences, affine functions of the sequences.
(Only the *types* of the user handles are taken from the model.)
-/
namespace Mpc.NlSpec

variable {K : Type} {d : Dims}

/-- the sequence with the entry of step `i`, component `j` increased by `t` -/
def bump [Add K] {r c : Nat} (X : Traj r c K) (i j : Nat) (t : K) : Traj r c K :=
  fun k a => if (k : Nat) = i ∧ (a : Nat) = j then X k a + t else X k a

/-- the vector with component `j` increased by `t` -/
def bumpV [Add K] {n : Nat} (x : FVec n K) (j : Nat) (t : K) : FVec n K :=
  fun a => if (a : Nat) = j then x a + t else x a

/-- outputs along the horizon: the user's map at every step, zero without an output map -/
def outputs [Zero K] (g : Option (OutFn d K)) (X : Traj (d.ph + 1) d.nx K) (U : Traj (d.ph + 1) d.nu K) :
    Traj (d.ph + 1) d.ny K :=
  match g with
  | none => fun _ _ => 0
  | some g => fun k => g (fun _ => 0) (X k) (U k) k

/-- the states the code uses for decision vector `z`: as documented except that the measured state in row 0
is multiplied by the scaling as well (see C35) -/
def codeStates [Field K] (d : Dims) (s x0 z : Nat → K) : Traj (d.ph + 1) d.nx K :=
  fun k a => if (k : Nat) = 0 then s a * x0 a else s a * z (stateIx d (k - 1) a)

/-- the inputs for decision vector `z` -/
def inputs [Field K] (d : Dims) (s z : Nat → K) : Traj (d.ph + 1) d.nu K := fun k b => inputAt d s z k b

/-- `φ` is the affine function with the given coefficients -/
def IsAffine [Field K] {r n m : Nat} (φ : Traj r n K → Traj r m K → K → K) (c0 : K)
    (α β : Nat → Nat → K) (γ : K) : Prop :=
  ∀ X U e, φ X U e = c0 + ∑ k : Fin r, ∑ a : Fin n, α k a * X k a + ∑ k : Fin r, ∑ b : Fin m, β k b * U k b + γ * e

end Mpc.NlSpec

namespace Mpc.NlSpec
variable {K : Type} {d : Dims}

/-- the objective as a function of states, inputs and slack (the outputs follow from states and inputs) -/
def costOf [Zero K] (f : ObjFn d K) (g : Option (OutFn d K)) (X : Traj (d.ph + 1) d.nx K)
    (U : Traj (d.ph + 1) d.nu K) (e : K) : K :=
  f X (outputs g X U) U e

end Mpc.NlSpec

namespace Mpc.NlSpec
variable {K : Type} {d : Dims}

/-- the user's inequality function fills the whole vector it is given: its result is `F`, whatever was there -/
def FillsI (f : IConFn d K)
    (F : Traj (d.ph + 1) d.nx K → Traj (d.ph + 1) d.ny K → Traj (d.ph + 1) d.nu K → K → FVec d.ineq K) : Prop :=
  ∀ buf X Y U e, f buf X Y U e = F X Y U e

/-- the user's equality function fills the whole vector it is given -/
def FillsE (f : EConFn d K)
    (F : Traj (d.ph + 1) d.nx K → Traj (d.ph + 1) d.nu K → FVec d.eq K) : Prop :=
  ∀ buf X U, f buf X U = F X U

/-- the user's model fills the whole vector it is given -/
def FillsS (f : StateFn d K) (F : FVec d.nx K → FVec d.nu K → Nat → FVec d.nx K) : Prop :=
  ∀ buf x u k, f buf x u k = F x u k

/-- the inequality constraints as a function of states, inputs and slack -/
def ineqOf [Zero K]
    (F : Traj (d.ph + 1) d.nx K → Traj (d.ph + 1) d.ny K → Traj (d.ph + 1) d.nu K → K → FVec d.ineq K)
    (g : Option (OutFn d K)) (X : Traj (d.ph + 1) d.nx K) (U : Traj (d.ph + 1) d.nu K) (e : K) :
    FVec d.ineq K :=
  F X (outputs g X U) U e

end Mpc.NlSpec

namespace Mpc.NlSpec
variable {K : Type}

/-- entry of step `i`, component `j` (zero outside of the sequence) -/
def entry [Zero K] {r c : Nat} (X : Traj r c K) (i j : Nat) : K :=
  if h : i < r ∧ j < c then X ⟨i, h.1⟩ ⟨j, h.2⟩ else 0

/-- entry `j` when the sequence is read component after component -/
def linear [Zero K] {r c : Nat} (X : Traj r c K) (j : Nat) : K := entry X (j % r) (j / r)

/-- a difference step relative to the magnitude of `v`, at least `t` -/
def stepOf [Field K] [LinearOrder K] (t v : K) : K := t * if |v| < 1 then 1 else |v|

end Mpc.NlSpec
