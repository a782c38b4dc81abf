import Mathlib.Algebra.Field.Defs
import Verif.Basic.Flt
import Verif.Model.LMPC

/-
`ProblemBuilder::get` when its arguments are arbitrary `double`s: references, disturbances, the measured state or the last
command may be NaN or infinite (a missing measurement, a reference nobody cares about, a division by zero upstream).

Simplifications:
* finite numbers are added and multiplied exactly (rounding is the subject of Rounding.lean) and do not overflow; the two
  zeros are identified;
* the settings (model, weights, bounds, multipliers) are those of a `Builder`, i.e. numbers and possibly infinite bounds;
* Eigen's dense products are sums over all indices, from the first to the last, and take no shortcut for zero factors
  (Eigen/src/Core/GeneralProduct.h; a BLAS back end, which libmpc does not select, might).
-/
namespace Mpc

open Exec

namespace Flt
variable {K : Type} [Field K] [LinearOrder K]

/-- `-a` -/
def neg : Flt K → Flt K
  | nan => nan
  | num .negInf => num .posInf
  | num (.fin x) => num (.fin (-x))
  | num .posInf => num .negInf

/-- `a + b` : the sum of opposite infinities is NaN -/
def add : Flt K → Flt K → Flt K
  | nan, _ => nan
  | num _, nan => nan
  | num (.fin x), num (.fin y) => num (.fin (x + y))
  | num (.fin _), num b => num b
  | num a, num (.fin _) => num a
  | num .posInf, num .posInf => num .posInf
  | num .negInf, num .negInf => num .negInf
  | num .posInf, num .negInf => nan
  | num .negInf, num .posInf => nan

/-- an infinity times a number: NaN if the number is zero -/
def infTimes (a : Ext K) (x : K) : Flt K :=
  if x = 0 then nan else if 0 < x then num a else neg (num a)

/-- `a * b` -/
def mul : Flt K → Flt K → Flt K
  | nan, _ => nan
  | num _, nan => nan
  | num (.fin x), num (.fin y) => num (.fin (x * y))
  | num (.fin x), num b => infTimes b x
  | num a, num (.fin y) => infTimes a y
  | num .posInf, num b => num b
  | num .negInf, num b => neg (num b)

instance : One (Flt K) := ⟨fin 1⟩
instance : Neg (Flt K) := ⟨neg⟩
instance : Add (Flt K) := ⟨add⟩
instance : Mul (Flt K) := ⟨mul⟩

end Flt

/-- a bound over another type of numbers -/
def Ext.over {α β : Type} (f : α → β) : Ext α → Ext β
  | negInf => negInf
  | fin x => fin (f x)
  | posInf => posInf

/-- coefficientwise copy into another type -/
def Mat.map {α β : Type} (m : Mat α) (f : α → β) : Mat β := ⟨m.rows, m.cols, fun i j => f (m.get i j)⟩

/-- coefficientwise copy into another type -/
def Vec.to {α β : Type} (v : Vec α) (f : α → β) : Vec β := ⟨v.size, fun i => f (v.get i)⟩

/-- What OSQP gets to see of the signals (ProblemBuilder.hpp:528-633): the linear cost and the two bounds of each row, as
`double`s. -/
structure FltProblem (K : Type) where
  q : Vec (Flt K)
  l : Vec (Flt K)
  u : Vec (Flt K)

namespace Builder
variable {K : Type} [Field K] [LinearOrder K]

/-- The members of a `ProblemBuilder` (ProblemBuilder.hpp:828-858), read as `double`s. -/
def toFlt (b : Builder K) : Builder (Flt K) where
  d := b.d
  uninit := fun i j => .fin (b.uninit i j)
  ssA := b.ssA.map .fin
  ssB := b.ssB.map .fin
  ssC := b.ssC.map .fin
  ssBv := b.ssBv.map .fin
  ssDv := b.ssDv.map .fin
  wOutput := b.wOutput.map .fin
  wU := b.wU.map .fin
  wDeltaU := b.wDeltaU.map .fin
  minX := b.minX.map (·.over .fin)
  maxX := b.maxX.map (·.over .fin)
  minY := b.minY.map (·.over .fin)
  maxY := b.maxY.map (·.over .fin)
  minU := b.minU.map (·.over .fin)
  maxU := b.maxU.map (·.over .fin)
  sMin := b.sMin.to (·.over .fin)
  sMax := b.sMax.to (·.over .fin)
  sMultiplier := b.sMultiplier.map .fin
  leq := b.leq.to .fin
  ueq := b.ueq.to .fin
  lineq := b.lineq.to (·.over .fin)
  uineq := b.uineq.to (·.over .fin)
  ineqOffset := b.ineqOffset.to .fin
  P := b.P.map .fin
  q := b.q.to .fin
  A := b.A.map .fin
  l := b.l.to (·.over .fin)
  u := b.u.to (·.over .fin)

/-- `get` (ProblemBuilder.hpp:528-633) on `double` arguments. The loop is the one of `Builder.get`, on `double`s; what follows
it (ProblemBuilder.hpp:608-632) is repeated because a bound plus an offset is now a sum of two `double`s. -/
def getF (b : Builder K) (x0 u0 : Vec (Flt K)) (yRef uRef duRef uMeas : Mat (Flt K)) : Exec (FltProblem K) := do
  let d := b.d
  let w0 : Mat (Flt K) := Mat.const (d.ny + d.nu) (d.ny + d.nu) 0
  let s ← forRange (d.ph + 1)
    (⟨w0, Vec.const b.q.size 0, Vec.const b.leq.size 0, Vec.const b.ineqOffset.size 0⟩ : GetState (Flt K))
    (b.toFlt.getBody yRef uRef duRef uMeas)
  let leq ← s.leq.setSeg 0 d.nx x0.neg
  let leq ← leq.setSeg d.nx d.nu u0.neg
  let ueq := leq
  let nS := (d.ph + 1) * (d.nu + d.nx)
  let l : Vec (Flt K) := Vec.const b.l.size 0
  let u : Vec (Flt K) := Vec.const b.u.size 0
  let l ← l.setSeg 0 nS leq
  let u ← u.setSeg 0 nS ueq
  let lo ← (b.lineq.to Flt.num).add s.off
  let l ← l.setSeg nS (nS + (d.ph + 1) * d.ny + d.ph * d.nu + (d.ph + 1)) lo
  let uo ← (b.uineq.to Flt.num).add s.off
  let u ← u.setSeg nS (nS + (d.ph + 1) * d.ny + d.ph * d.nu + (d.ph + 1)) uo
  return ⟨s.q, l, u⟩

end Builder
end Mpc
