import Verif.Spec.Qp

/-
Specification: what the history of a linear controller says about its last results, parameters and vectors.
A history is the list of calls `ops` with what they returned `outs`, oldest first.
-/
namespace Mpc.Spec
variable {K : Type} [Zero K] [One K] [Add K] [Mul K] [Neg K] [Div K] [NatCast K]

/-- The most recent call for which `f` gives something. -/
def latest {β : Type} (f : LOp K → LOut K → Option β) (ops : List (LOp K)) (outs : List (LOut K)) : Option β :=
  (ops.zip outs).reverse.findSome? fun p => f p.1 p.2

/-- Does OSQP's status code announce a solution? (`has_solution` of OSQP 0.6: every status except primal/dual
infeasible, exact or inaccurate, non-convex and unsolved.) -/
def hasSolution (status : Int) : Bool :=
  !(status = -3 || status = 3 || status = -4 || status = 4 || status = -7 || status = -10)

/-- the result of an `optimize` call in which OSQP handed back vectors -/
def answeredResult : LOp K → LOut K → Option (LResult K)
  | .optimize _ _ (.answered _ _ (some _)), .result r _ => some r
  | _, _ => none

/-- the result of an `optimize` call in which OSQP found a solution -/
def solvedResult : LOp K → LOut K → Option (LResult K)
  | .optimize _ _ (.answered st _ (some _)), .result r _ => if hasSolution st then some r else none
  | _, _ => none

/-- the result of an `optimize` call -/
def anyResult : LOp K → LOut K → Option (LResult K)
  | .optimize _ _ _, .result r _ => some r
  | _, _ => none

/-- The command of the most recent of the calls selected by `f`, zero if there is none. -/
def latestCommand (f : LOp K → LOut K → Option (LResult K)) (d : Dims) (ops : List (LOp K)) (outs : List (LOut K)) : Vec K :=
  ((latest f ops outs).map LResult.cmd).getD (Vec.const d.nu 0)

/-- the solver parameters set by a call -/
def paramsOf : LOp K → LOut K → Option (LParams K)
  | .setOptimizerParameters (.linear p), _ => some p
  | _, _ => none

/-- The parameters in force: the last ones set, or the defaults. -/
def latestParams (ops : List (LOp K)) (outs : List (LOut K)) : LParams K := (latest paramsOf ops outs).getD {}

/-- primal and dual vectors set by the user, or returned by OSQP together with a solution -/
def vectorsOf (d : Dims) (any : Bool) : LOp K → LOut K → Option (Vec K × Vec K)
  | .setSolverWarmStart x y, _ => some (x, y)
  | .optimize _ _ (.answered st _ (some (x, y))), _ =>
    if any || hasSolution st then some (⟨varCount d, x⟩, ⟨rowCount d, y⟩) else none
  | _, _ => none

/-- The vectors a warm start is made with: the most recent ones, empty if there are none. With `any = false` only
OSQP's solutions count, with `any = true` whatever vectors OSQP handed back. -/
def latestVectors (any : Bool) (d : Dims) (ops : List (LOp K)) (outs : List (LOut K)) : Vec K × Vec K :=
  (latest (vectorsOf d any) ops outs).getD (Vec.const 0 0, Vec.const 0 0)

/-- The warm start that follows from parameters and vectors. -/
def warmStart (p : LParams K) (v : Vec K × Vec K) : Option (Vec K × Vec K) :=
  if p.enable_warm_start = true ∧ 0 < v.1.size ∧ 0 < v.2.size then some v else none

/-- Was `optimize` called at all? -/
def optimized (ops : List (LOp K)) : Prop := ∃ x u oc, LOp.optimize x u oc ∈ ops

end Mpc.Spec
