import Mathlib.Algebra.Field.Defs
import Verif.Basic.Eigen
import Verif.Model.Types

/-
Model of /repo/include/mpc/NLMPC/Model.hpp and of the user function handles of
/repo/include/mpc/IDimensionable.hpp:86-149.

User functions are arbitrary functions of their arguments. A function which fills a vector passed by reference
is modelled as (old contents, arguments) -> new contents. Simplification: user functions terminate, do not throw,
do not resize the vector they fill (in static mode they cannot) and have no hidden state.
-/
namespace Mpc

open Exec

/-- contents of an `r x c` matrix, as seen by a user function -/
abbrev Traj (r c : Nat) (K : Type) := Fin r → Fin c → K

/-- contents of a vector of size `n`, as seen by a user function -/
abbrev FVec (n : Nat) (K : Type) := Fin n → K

/-- `ObjFunHandle` (IDimensionable.hpp:94-98): states, outputs, inputs, slack -/
abbrev ObjFn (d : Dims) (K : Type) :=
  Traj (d.ph + 1) d.nx K → Traj (d.ph + 1) d.ny K → Traj (d.ph + 1) d.nu K → K → K

/-- `IConFunHandle` (IDimensionable.hpp:107-112): vector to fill, states, outputs, inputs, slack -/
abbrev IConFn (d : Dims) (K : Type) :=
  FVec d.ineq K → Traj (d.ph + 1) d.nx K → Traj (d.ph + 1) d.ny K → Traj (d.ph + 1) d.nu K → K → FVec d.ineq K

/-- `EConFunHandle` (IDimensionable.hpp:120-123): vector to fill, states, inputs -/
abbrev EConFn (d : Dims) (K : Type) :=
  FVec d.eq K → Traj (d.ph + 1) d.nx K → Traj (d.ph + 1) d.nu K → FVec d.eq K

/-- `StateFunHandle` (IDimensionable.hpp:132-136): vector to fill, state, input, step -/
abbrev StateFn (d : Dims) (K : Type) := FVec d.nx K → FVec d.nx K → FVec d.nu K → Nat → FVec d.nx K

/-- `OutFunHandle` (IDimensionable.hpp:145-149): vector to fill, state, input, step -/
abbrev OutFn (d : Dims) (K : Type) := FVec d.ny K → FVec d.nx K → FVec d.nu K → Nat → FVec d.ny K

/-- contents of a matrix of the given sizes -/
def Mat.viewF {K : Type} (m : Mat K) (r c : Nat) : Traj r c K := fun i j => m.get i j

/-- passing a matrix to a user function; the parameter types fix the sizes -/
def Mat.view {K : Type} (m : Mat K) (r c : Nat) : Exec (Traj r c K) := do
  require (m.rows = r ∧ m.cols = c) .sizeMismatch
  return m.viewF r c

/-- contents of a vector of the given size -/
def Vec.viewF {K : Type} (v : Vec K) (n : Nat) : FVec n K := fun i => v.get i

/-- passing a vector to a user function -/
def Vec.view {K : Type} (v : Vec K) (n : Nat) : Exec (FVec n K) := do
  require (v.size = n) .sizeMismatch
  return v.viewF n

/-- the vector with the given contents -/
def Vec.ofF {K : Type} [Zero K] {n : Nat} (f : FVec n K) : Vec K :=
  ⟨n, fun i => if h : i < n then f ⟨i, h⟩ else 0⟩

theorem Mat.view_ok {K : Type} {m : Mat K} {r c : Nat} (h1 : m.rows = r) (h2 : m.cols = c) :
    m.view r c = .ok (m.viewF r c) := by simp [Mat.view, require, h1, h2]

theorem Vec.view_ok {K : Type} {v : Vec K} {n : Nat} (h : v.size = n) : v.view n = .ok (v.viewF n) := by
  simp [Vec.view, require, h]

theorem Vec.ofF_get {K : Type} [Zero K] {n : Nat} (f : FVec n K) (i : Fin n) : (Vec.ofF f).get i = f i := by
  simp [Vec.ofF]

@[simp] theorem Vec.ofF_size {K : Type} [Zero K] {n : Nat} (f : FVec n K) : (Vec.ofF f).size = n := rfl

/-- Members of `Model` (Model.hpp:141-147). `none` is an empty `std::function`. -/
structure NlModel (d : Dims) (K : Type) where
  continuous : Bool
  Ts : K
  vectorField : Option (StateFn d K)
  outUser : Option (OutFn d K)

namespace NlModel
variable {d : Dims} {K : Type}

/-- `Model::hasOutputModel` (Model.hpp:59-63) -/
def hasOutputModel (M : NlModel d K) : Bool := M.outUser.isSome

/-- `Model::setContinuous` (Model.hpp:106-111) -/
def setContinuous (M : NlModel d K) (c : Bool) (Ts : K) : NlModel d K := { M with Ts := Ts, continuous := c }

/-- `Model::setStateModel` (Model.hpp:120-125) -/
def setStateModel (M : NlModel d K) (f : Option (StateFn d K)) : NlModel d K := { M with vectorField := f }

/-- `Model::setOutputModel` (Model.hpp:134-139) -/
def setOutputModel (M : NlModel d K) (f : Option (OutFn d K)) : NlModel d K := { M with outUser := f }

/-- `Model::getOutput` (Model.hpp:72-96) -/
def getOutput [Zero K] (M : NlModel d K) (X U : Mat K) : Exec (Mat K) := do
  let Y := Mat.const (d.ph + 1) d.ny (0 : K)
  match M.outUser with
  | none => return Y
  | some f =>
    forRange (d.ph + 1) Y fun i Y => do
      let x ← (← X.row i).view d.nx
      let u ← (← U.row i).view d.nu
      Y.setRow i (Vec.ofF (f (fun _ => 0) x u (toUnsigned i)))

/-- call of `vectorField(buf, x, u, p)`; an empty handle throws `std::bad_function_call` -/
def callState [Zero K] (M : NlModel d K) (buf : FVec d.nx K) (x u : Vec K) (p : Nat) : Exec (Vec K) := do
  match M.vectorField with
  | none => .error .cppThrow
  | some f => do
    let x ← x.view d.nx
    let u ← u.view d.nu
    return Vec.ofF (f buf x u p)

end NlModel
end Mpc
