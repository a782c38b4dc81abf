import Verif.Model.NLMPC
import Verif.Spec.NlCfg

/-
Specification vocabulary for histories of API calls on the nonlinear controller. (Of the model only the types of calls
and returned values are used.)
-/
namespace Mpc.NlSpec

variable {K : Type} {d : Dims} [Field K]

/-- the decision vector of a callback has the right size -/
def CallbackFits (d : Dims) : NlCallback K → Prop
  | .obj z _ _ | .con _ z _ _ => z.size = d.ph * d.nx + d.nu * d.ch + 1

/-- arguments have the sizes their parameter types prescribe, and NLopt returns a vector of the size it was given -/
def CallFits (d : Dims) : NlCall d K → Prop
  | .setInputScale v => v.size = d.nu
  | .setStateScale v => v.size = d.nx
  | .setStateBounds mn mx => (mn.rows = d.nx ∧ mn.cols = d.ph) ∧ mx.rows = d.nx ∧ mx.cols = d.ph
  | .setInputBounds mn mx => (mn.rows = d.nu ∧ mn.cols = d.ch) ∧ mx.rows = d.nu ∧ mx.cols = d.ch
  | .setStateBoundsSlice l u s => l.size = d.nx ∧ u.size = d.nx ∧ s.Int32
  | .setInputBoundsSlice l u s => l.size = d.nu ∧ u.size = d.nu ∧ s.Int32
  | .optimize x0 u0 cs out _ => x0.size = d.nx ∧ u0.size = d.nu ∧ (∀ c ∈ cs, CallbackFits d c) ∧
      match out with
      | .threw => True
      | .answered z _ _ _ => z.size = d.ph * d.nx + d.nu * d.ch + 1
  | _ => True

end Mpc.NlSpec

namespace Mpc.NlSpec
variable {K : Type} {d : Dims} [Field K]

/-- an equality constraint function was set in the history -/
def HasEq (ops : List (NlCall d K)) : Prop := ∃ F tol acc, NlCall.setEqConFunction F tol acc ∈ ops

/-- the whole horizon, or a slice of it that does not start at a negative step -/
def SliceUsable (s : HorizonSlice) : Prop := s = HorizonSlice.all ∨ 0 ≤ s.start

/-- Well-formed use after any history: parameters of the right type, no negative slices, no equality constraint
function with dimensions given at run time or with no equality constraint. -/
def Admissible (d : Dims) (dynamic : Bool) (_ : List (NlCall d K)) : NlCall d K → Prop
  | .setOptimizerParameters p => ∃ q, p = .nonlinear q
  | .setEqConFunction _ _ _ => dynamic = false ∧ 0 < d.eq
  | .setStateBoundsSlice _ _ s | .setInputBoundsSlice _ _ s => SliceUsable s
  | _ => True

/-- every call of a history is admissible after those before it -/
def AdmissibleHistory (d : Dims) (dynamic : Bool) (ops : List (NlCall d K)) : Prop :=
  ∀ pre op post, ops = pre ++ op :: post → Admissible d dynamic pre op

end Mpc.NlSpec
