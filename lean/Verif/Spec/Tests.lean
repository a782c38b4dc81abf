import Verif.Basic.Eigen
import Verif.Basic.Ext

/-
Vocabulary of the project's own tests (/repo/test): what a `REQUIRE` on a segment of a vector says.
-/
namespace Mpc.Spec

/-- `v.segment(start, n)` exists and its entry `k` is `f k`, for every `k < n`: what
`REQUIRE((c == v.segment(start, n).array()).all())`, `REQUIRE(v.segment(start, n).isZero())` and
`REQUIRE(v.segment(start, n).isApprox(expected))` assert (test_lmpc.cpp:187-195, 268-299), exactly. -/
def SegIs {α : Type} (v : Vec α) (start n : Nat) (f : Nat → α) : Prop :=
  start + n ≤ v.size ∧ ∀ k, k < n → v.get (start + k) = f k

/-- `v.tail(n)` exists and its entry `k` is `f k` (test_lmpc.cpp:301-302). -/
def TailIs {α : Type} (v : Vec α) (n : Nat) (f : Nat → α) : Prop :=
  n ≤ v.size ∧ ∀ k, k < n → v.get (v.size - n + k) = f k

end Mpc.Spec
