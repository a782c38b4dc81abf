import Verif.Model.Instances

/-
Programs with controllers of several classes: linear ones and nonlinear ones of several sizes (`NLMPC` is a class template: NLMPC.hpp:30-37)
live on one heap and are constructed, called, copied and destroyed in any order.

Simplifications: as in Instances.lean. A call of a member function of another class, which does not compile, is a fault; so is an
assignment between classes, as far as it is made from a linear controller, which can never be assigned.
-/
namespace Mpc
open Exec

/-- several classes as one: everything carries the index of its class -/
def Kind.family {ι : Type} [DecidableEq ι] (k : ι → Kind) : Kind where
  Args := Σ i, (k i).Args
  Body := Σ i, (k i).Body
  Opt := Σ i, (k i).Opt
  Op := Σ i, (k i).Op
  Out := Σ i, (k i).Out
  build := fun a => do
    let r ← (k a.1).build a.2
    return (⟨a.1, r.1⟩, ⟨a.1, r.2⟩)
  step := fun b o op =>
    if h : o.1 = b.1 ∧ op.1 = b.1 then do
      let r ← (k b.1).step b.2 (h.1 ▸ o.2) (h.2 ▸ op.2)
      return (⟨b.1, r.1⟩, ⟨b.1, r.2.1⟩, ⟨b.1, r.2.2⟩)
    else .error .assertion
  viaOwner := fun op => (k op.1).viaOwner op.2
  deletes := fun b => (k b.1).deletes b.2
  copyable := fun b => (k b.1).copyable b.2

/-- the classes of this library: `none` for `LMPC` (LMPC.hpp:45), `some d` for `NLMPC` of dimensions `d` (NLMPC.hpp:38) -/
def classes (K : Type) [Field K] [LinearOrder K] : Option Dims → Kind
  | none => linearKind K
  | some d => nonlinearKind d K

/-- controllers of both classes and of all dimensions in one program (LMPC.hpp:45, NLMPC.hpp:38) -/
abbrev mixedKind (K : Type) [Field K] [LinearOrder K] : Kind := Kind.family (classes K)

end Mpc
