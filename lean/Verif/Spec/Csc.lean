import Verif.Model.Sparse

/-
Specification: what a compressed-column matrix means to OSQP, and when it is well formed.
-/
namespace Mpc.Spec

/-- The value OSQP sees at (r, c): the sum of the stored values of column `c` with row index `r`. -/
def cscEntry {K : Type} [Zero K] [Add K] (a : Csc K) (r c : Nat) : K :=
  sumTo (a.p.get (c + 1) - a.p.get c) fun t => if a.i.get (a.p.get c + t) = r then a.x.get (a.p.get c + t) else 0

/-- OSQP's requirements on a `csc` argument. -/
structure CscWellFormed {K : Type} (a : Csc K) : Prop where
  pSize : a.p.size = a.n + 1
  start : a.p.get 0 = 0
  mono : ∀ c, c < a.n → a.p.get c ≤ a.p.get (c + 1)
  last : a.p.get a.n = a.nzmax
  sizes : a.i.size = a.nzmax ∧ a.x.size = a.nzmax
  range : ∀ k, k < a.nzmax → a.i.get k < a.m
  increasing : ∀ c, c < a.n → ∀ k, a.p.get c ≤ k → k + 1 < a.p.get (c + 1) → a.i.get k < a.i.get (k + 1)

end Mpc.Spec
