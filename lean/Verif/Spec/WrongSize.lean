import Verif.Spec.Qp

/-
Specification: arguments whose sizes are not those of the documentation. (Only possible with dynamic dimensions and from Python;
with compile-time dimensions the types exclude it.)
-/
namespace Mpc.Spec
variable {K : Type} [Zero K] [One K] [Add K] [Mul K] [Neg K] [Div K] [NatCast K]

/-- `M` has `r` rows and `c` columns -/
def IsMat {α : Type} (M : Mat α) (r c : Nat) : Prop := M.rows = r ∧ M.cols = c

/-- The vectors and matrices of a call have the sizes of the documentation. -/
def SizesRight (d : Dims) : LOp K → Prop
  | .setStateSpaceModel A B C => IsMat A d.nx d.nx ∧ IsMat B d.nx d.nu ∧ IsMat C d.ny d.nx
  | .setDisturbances Bd Dd => IsMat Bd d.nx d.ndu ∧ IsMat Dd d.ny d.ndu
  | .setObjectiveWeights OW UW DW => IsMat OW d.ny d.ph ∧ IsMat UW d.nu d.ph ∧ IsMat DW d.nu d.ph
  | .setObjectiveWeightsSlice OW UW DW _ => OW.size = d.ny ∧ UW.size = d.nu ∧ DW.size = d.nu
  | .setStateBounds mn mx => IsMat mn d.nx d.ph ∧ IsMat mx d.nx d.ph
  | .setStateBoundsSlice mn mx _ => mn.size = d.nx ∧ mx.size = d.nx
  | .setInputBounds mn mx => IsMat mn d.nu d.ch ∧ IsMat mx d.nu d.ch
  | .setInputBoundsSlice mn mx _ => mn.size = d.nu ∧ mx.size = d.nu
  | .setOutputBounds mn mx => IsMat mn d.ny d.ph ∧ IsMat mx d.ny d.ph
  | .setOutputBoundsSlice mn mx _ => mn.size = d.ny ∧ mx.size = d.ny
  | .setScalarConstraintSlice _ _ X U _ => X.size = d.nx ∧ U.size = d.nu
  | .setScalarConstraintAt _ _ _ X U => X.size = d.nx ∧ U.size = d.nu
  | .setExogenousInputs M => IsMat M d.ndu d.ph
  | .setExogenousInputsSlice v _ => v.size = d.ndu
  | .setReferences Y U D => IsMat Y d.ny d.ph ∧ IsMat U d.nu d.ph ∧ IsMat D d.nu d.ph
  | .setReferencesSlice y u du _ => y.size = d.ny ∧ u.size = d.nu ∧ du.size = d.nu
  | .setSolverWarmStart x y => x.size = varCount d ∧ y.size = rowCount d
  | .optimize x0 u0 _ => x0.size = d.nx ∧ u0.size = d.nu
  | _ => True

/-- The part of the sizes on which the call itself insists. The calls not insisting on all of them: increment weights may have
more columns than the horizon, the two multipliers of a scalar constraint are only measured together, and whole-horizon
references, disturbances and warm starts are stored unseen. -/
def SizesTested (d : Dims) : LOp K → Prop
  | .setObjectiveWeights OW UW DW => IsMat OW d.ny d.ph ∧ IsMat UW d.nu d.ph ∧ DW.rows = d.nu ∧ d.ph ≤ DW.cols
  | .setScalarConstraintSlice _ _ X U _ => X.size + U.size = d.nx + d.nu
  | .setScalarConstraintAt _ _ _ X U => X.size + U.size = d.nx + d.nu
  | .setExogenousInputs _ => True
  | .setReferences _ _ _ => True
  | .setSolverWarmStart _ _ => True
  | op => SizesRight d op

/-- The first `n` columns of a matrix -/
def firstCols {α : Type} (n : Nat) (M : Mat α) : Mat α := ⟨M.rows, n, M.get⟩

/-- References an `optimize` can be computed from: outputs and inputs together as many rows as there are outputs and inputs,
one row of increments for each input, and at least one column for each step. -/
def RefsUsable (d : Dims) (Y U D : Mat K) : Prop :=
  Y.rows + U.rows = d.ny + d.nu ∧ D.rows = d.nu ∧ d.ph ≤ Y.cols ∧ d.ph ≤ U.cols ∧ d.ph ≤ D.cols

/-- Disturbances an `optimize` can be computed from -/
def DistUsable (d : Dims) (M : Mat K) : Prop := M.rows = d.ndu ∧ d.ph ≤ M.cols

end Mpc.Spec
