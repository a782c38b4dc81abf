import Mathlib.Analysis.SpecialFunctions.Pow.Real
import Verif.Basic.Exec
import Verif.Model.Types

/-
Model of include/mpc/Profiler.hpp and of the part of include/mpc/IMPC.hpp that uses it.

`double` is ℝ with a function `rnd` applied to the result of every operation: the identity (the default) for exact arithmetic,
a rounding for floating-point arithmetic. The clock is an oracle (every reading is an argument, in seconds).
Simplifications: conversions of `int`s to `double` are exact (they are below 2^53); no overflow or underflow; `pow(x, 2)` and
`sqrt` are rounded once. `percentages` are the exact percentages; the printed text is in Model/Print.lean.
-/
namespace Mpc

noncomputable section

/-- `INT_MAX` (32-bit int) -/
def intMax : Nat := 2 ^ 31 - 1

/-- `++` on a non-negative `int`: overflow is a fault (Profiler.hpp:173, 202) -/
def incr (n : Nat) : Exec Nat := if n < intMax then .ok (n + 1) else .error .signedOverflow

/-- The members of `SolutionStats` (Profiler.hpp:116-119). `states s = none` : no entry in the map. -/
@[ext] structure SolutionStats where
  minSolutionTime : ℝ
  maxSolutionTime : ℝ
  averageSolutionTime : ℝ
  totalSolutionTime : ℝ
  solutionsStates : ResultStatus → Option Nat
  standardDeviation : ℝ
  numberOfSolutions : Nat

/-- `clear` (Profiler.hpp:44-54); `big` is `DBL_MAX`, `duration<double>::min()` is `-DBL_MAX` -/
def SolutionStats.clear (big : ℝ) : SolutionStats where
  minSolutionTime := big
  maxSolutionTime := -big
  averageSolutionTime := 0
  totalSolutionTime := 0
  solutionsStates := fun _ => none
  standardDeviation := 0
  numberOfSolutions := 0

/-- `addSolutionTime` (Profiler.hpp:199-229). The quotient of line 224 is the C++ integer division. -/
def SolutionStats.addSolutionTime (s : SolutionStats) (time : ℝ) (rnd : ℝ → ℝ := id) : Exec SolutionStats := do
  let s := { s with totalSolutionTime := rnd (s.totalSolutionTime + time) }
  let n ← incr s.numberOfSolutions
  let s := { s with numberOfSolutions := n }
  let s := if time < s.minSolutionTime then { s with minSolutionTime := time } else s
  let s := if time > s.maxSolutionTime then { s with maxSolutionTime := time } else s
  if n > 0 then
    let av := rnd (rnd (1 / (n : ℝ)) * rnd (time + rnd (((n : ℝ) - 1) * s.averageSolutionTime)))
    let s := { s with averageSolutionTime := av }
    if n = 1 then
      return { s with standardDeviation := 0 }
    else
      let residual : ℝ := rnd (((n / (n - 1) : Nat) : ℝ) * rnd (rnd (time - s.averageSolutionTime) ^ 2))
      let stdDev_old : ℝ := rnd (((n : ℝ) - 2) * rnd (s.standardDeviation ^ 2))
      return { s with standardDeviation := rnd (Real.sqrt (rnd (rnd (stdDev_old + residual) / ((n : ℝ) - 1)))) }
  else
    return s

/-- `solutionsStates[status]++` (Profiler.hpp:173) on a `std::map`: a missing entry is created with value 0 -/
def SolutionStats.countStatus (s : SolutionStats) (status : ResultStatus) : Exec SolutionStats := do
  let c ← incr ((s.solutionsStates status).getD 0)
  return { s with solutionsStates := fun t => if t = status then some c else s.solutionsStates t }

/-- the percentage of each entry of the map (Profiler.hpp:100-106), in the order of the map -/
def SolutionStats.percentages (s : SolutionStats) : List (ResultStatus × ℝ) :=
  [ResultStatus.SUCCESS, .MAX_ITERATION, .INFEASIBLE, .ERROR, .UNKNOWN].filterMap fun st =>
    (s.solutionsStates st).map fun (c : Nat) => (st, ((c : ℝ) / (s.numberOfSolutions : ℝ)) * 100)

/-- `Profiler` (Profiler.hpp:231-232) -/
@[ext] structure Profiler where
  startTime : ℝ
  stats : SolutionStats

namespace Profiler

/-- `reset` (Profiler.hpp:146-149) -/
def reset (big : ℝ) (p : Profiler) : Profiler := { p with stats := .clear big }

/-- `solutionStart` (Profiler.hpp:154-157) -/
def solutionStart (p : Profiler) (now : ℝ) : Profiler := { p with startTime := now }

/-- `solutionEnd` (Profiler.hpp:166-177): the profiler and the elapsed time. The difference of the readings is one of integers,
its conversion to seconds is rounded (line 170). -/
def solutionEnd (p : Profiler) (now : ℝ) (status : ResultStatus) (rnd : ℝ → ℝ := id) : Exec (Profiler × ℝ) := do
  let elapsed := rnd (now - p.startTime)
  let s ← p.stats.countStatus status
  let s ← s.addSolutionTime elapsed rnd
  return ({ p with stats := s }, elapsed)

end Profiler

/-- What a user of a controller does with the statistics: `optimize` (IMPC.hpp:149-166) with the two clock readings and
the status of the result, or `none` when the optimizer leaves with an exception; `resetStats` (IMPC.hpp:214-217). -/
inductive StatOp where
  | optimize (start stop : ℝ) (status : Option ResultStatus)
  | resetStats

/-- the effect of a call on the profiler (IMPC.hpp:149-166, 214-217) -/
def Profiler.step (big : ℝ) (p : Profiler) (op : StatOp) (rnd : ℝ → ℝ := id) : Exec Profiler :=
  match op with
  | .optimize start stop (some status) => do
    let p := p.solutionStart start
    let (p, _) ← p.solutionEnd stop status rnd
    return p
  | .optimize start _ none => .ok (p.solutionStart start)
  | .resetStats => .ok (p.reset big)

/-- a history of calls -/
def Profiler.exec (big : ℝ) (p : Profiler) (ops : List StatOp) (rnd : ℝ → ℝ := id) : Exec Profiler :=
  match ops with
  | [] => .ok p
  | op :: ops => do
    let p ← p.step big op rnd
    p.exec big ops rnd

/-- the profiler of a new controller (Profiler.hpp:28-31, IMPC.hpp:240); `t0` is the unset start time -/
def Profiler.new (big t0 : ℝ) : Profiler := ⟨t0, .clear big⟩

end

end Mpc
