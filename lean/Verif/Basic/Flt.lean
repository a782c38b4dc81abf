import Mathlib.Algebra.Order.Group.Unbundled.Abs
import Verif.Basic.Ext

/-
`double` values including the infinities and NaN, with the comparisons of IEEE 754.
-/
namespace Mpc

/-- A `double`: NaN or a number (possibly infinite). -/
inductive Flt (K : Type) where
  | nan
  | num (x : Ext K)
  deriving DecidableEq, Repr

namespace Flt
variable {K : Type}

/-- an ordinary number -/
def fin (x : K) : Flt K := .num (.fin x)

instance [Zero K] : Zero (Flt K) := ⟨.fin 0⟩

/-- `a > b`; false when either is NaN -/
def gt [LE K] [DecidableLE K] : Flt K → Flt K → Bool
  | num a, num b => !decide (a ≤ b)
  | _, _ => false

/-- absolute value -/
def abs [Lattice K] [AddGroup K] : Flt K → Flt K
  | nan => nan
  | num .negInf => num .posInf
  | num .posInf => num .posInf
  | num (.fin x) => num (.fin |x|)

/-- the value is a number (possibly infinite) -/
def IsNum (a : Flt K) : Prop := a ≠ nan

end Flt

namespace Ext
variable {K : Type}

/-- the larger of two bounds -/
def max [LE K] [DecidableLE K] (a b : Ext K) : Ext K := if a ≤ b then b else a

end Ext
end Mpc
