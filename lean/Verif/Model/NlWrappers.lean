import Verif.Model.NlProblem

/-
Model of the functions which NLopt calls (/repo/include/mpc/NLMPC/NLOptimizer.hpp:714-848). They copy the results of the
evaluations into memory owned by NLopt: for a vector-valued constraint with `m` components and `n` variables a result of `m`
numbers and a gradient of `m * n` numbers or a null pointer; for the objective a vector which is empty if no gradient is
wanted. The contents of that memory before the call are arbitrary.
-/
namespace Mpc
open Exec

/-- `std::memcpy(dst, src.data(), src.size() * sizeof(double))` (NLOptimizer.hpp:761-764), also `std::copy_n`
(NLOptimizer.hpp:728-731), into memory of `dst.size` numbers -/
def Vec.memcpy {K : Type} (dst src : Vec K) : Exec (Vec K) := do
  require (src.size ≤ dst.size) .outOfBounds
  return ⟨dst.size, fun i => if i < src.size then src.get i else dst.get i⟩

/-- the memory handed to a constraint callback: `result` and `grad` (`none`: null pointer) (NLOptimizer.hpp:746-752) -/
structure NlBuffers (K : Type) where
  value : Vec K
  grad : Option (Vec K)

/-- copying a result (NLOptimizer.hpp:761-773, 799-811, 837-847); `res.grad` is a vector, so that transposing it does not
change the order of its entries -/
def NlBuffers.write {K : Type} (b : NlBuffers K) (r : ConCost K) : Exec (NlBuffers K) := do
  let v ← b.value.memcpy r.value
  match b.grad with
  | none => return ⟨v, none⟩
  | some g => do
    let g ← g.memcpy r.grad
    return ⟨v, some g⟩

/-- which callback a vector-valued constraint is bound to (NLOptimizer.hpp:239, 275, 312) -/
inductive NlGroupKind where
  | dynamics | userIneq | userEq
  deriving DecidableEq, Repr

namespace NlState
variable {d : Dims} {K : Type} [Field K] [LinearOrder K]

/-- `nloptObjFunWrapper` (NLOptimizer.hpp:714-734): the returned value and `grad` afterwards -/
def objWrapper (s : NlState d K) (grad z : Vec K) : Exec ((K × Vec K) × NlState d K) := do
  let r ← s.evalObj z (grad.size ≠ 0)
  if grad.size ≠ 0 then
    match r.1.grad with
    | some G => do
      let g ← grad.memcpy G
      return ((r.1.value, g), r.2)
    | none => .error .danglingUse
  else
    return ((r.1.value, grad), r.2)

/-- `nloptEqConFunWrapper` (NLOptimizer.hpp:745-774) -/
def eqConWrapper (s : NlState d K) (b : NlBuffers K) (z : Vec K) (junk : Nat → K) : Exec (NlBuffers K × NlState d K) := do
  let r ← s.evalDyn z b.grad.isSome junk
  let b ← b.write r.1
  return (b, r.2)

/-- `nloptUserIneqConFunWrapper` (NLOptimizer.hpp:785-812) -/
def userIneqWrapper (s : NlState d K) (b : NlBuffers K) (z : Vec K) (junk : Nat → K) :
    Exec (NlBuffers K × NlState d K) := do
  let r ← s.evalIneq z junk
  let b ← b.write r.1
  return (b, r.2)

/-- `nloptUserEqConFunWrapper` (NLOptimizer.hpp:823-848) -/
def userEqWrapper (s : NlState d K) (b : NlBuffers K) (z : Vec K) (junk : Nat → K) :
    Exec (NlBuffers K × NlState d K) := do
  let r ← s.evalEq z junk
  let b ← b.write r.1
  return (b, r.2)

/-- the function a constraint is bound to (NLOptimizer.hpp:239, 275, 312) -/
def conWrapper (s : NlState d K) : NlGroupKind → NlBuffers K → Vec K → (Nat → K) → Exec (NlBuffers K × NlState d K)
  | .dynamics => s.eqConWrapper
  | .userIneq => s.userIneqWrapper
  | .userEq => s.userEqWrapper

end NlState
end Mpc
