import Verif.Model.Mixed
import Verif.Spec.Instances

/-
Specification: what a program with controllers of several classes does with one of them, as a program of its class.
-/
namespace Mpc.Spec
variable {ι : Type} [DecidableEq ι] {k : ι → Kind}

/-- a step of the class `i`, in a program with several classes -/
def inClass (i : ι) : WOp (k i) → WOp (Kind.family k)
  | .create j a => .create j ⟨i, a⟩
  | .copy j l => .copy j l
  | .assign j l => .assign j l
  | .call j op => .call j ⟨i, op⟩
  | .destroy j => .destroy j

/-- the members and the optimizer of a controller of the class `i`, in a program with several classes -/
def asClass (i : ι) (s : (k i).Body × (k i).Opt) : (Kind.family k).Body × (Kind.family k).Opt := (⟨i, s.1⟩, ⟨i, s.2⟩)

/-- what a call of a controller of the class `i` returns, in a program with several classes -/
def outClass (i : ι) (o : (k i).Out) : (Kind.family k).Out := ⟨i, o⟩

end Mpc.Spec
