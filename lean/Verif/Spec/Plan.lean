import Verif.Spec.Cost

/-
Specification: the plans the configured controller allows, and the configuration as "last accepted write wins".
-/
namespace Mpc.Spec
variable {K : Type} [Field K]

/-- Everything the problem handed to OSQP asks of a decision vector (indices as the code uses them; where this
differs from the documentation, see the `_violated` theorems of the individual properties). -/
structure PlanOk [LE K] (d : Dims) (c : LinConfig K) (x0 u0 : Nat → K) (z : Nat → K) : Prop where
  trajectory : Trajectory d c x0 u0 z
  states : ∀ k a, k ≤ d.ph → a < d.nx → within (c.xMin (k - 1) a) (c.xMax (k - 1) a) (stateAt d z k a)
  held : ∀ k a, k ≤ d.ph → a < d.nu →
    within (c.uMin (min k (d.ph - 1)) a) (c.uMax (min k (d.ph - 1)) a) (heldAt d z k a)
  outputs : ∀ k a, k ≤ d.ph → a < d.ny →
    within (c.yMin (k - 1) a) (c.yMax (k - 1) a) (outputOf d c (stateAt d z k) (c.dist (k - 1)) a)
  frozen : ∀ k a, d.ch < k → k < d.ph → a < d.nu → incrementAt d z k a = 0
  scalar : ∀ k, k ≤ d.ph → within (c.sMin (k - 1)) (c.sMax (k - 1))
    (dot d.nx c.sX (stateAt d z k) + dot d.nu c.sU (heldAt d z k))

/-! ### Last accepted write wins -/

/-- The value written by the last accepted call that writes the item at all, or the default. `w op` is what the
call `op` writes to the item (`none`: nothing). -/
def lastWrite {β : Type} (w : LOp K → Option β) (dflt : β) (ops : List (LOp K)) (outs : List (LOut K)) : β :=
  ((ops.zip outs).reverse.findSome? fun p => if accepted p.2 then w p.1 else none).getD dflt

/-- value `v` if the slice covers step `k` -/
def onSlice {β : Type} (s : HorizonSlice) (k : Nat) (v : β) : Option β := if covers s k then some v else none

def writeModelSet : LOp K → Option Bool
  | .setStateSpaceModel _ _ _ => some true
  | _ => none
def writeA (a e : Nat) : LOp K → Option K
  | .setStateSpaceModel A _ _ => some (A.get a e)
  | _ => none
def writeB (a e : Nat) : LOp K → Option K
  | .setStateSpaceModel _ B _ => some (B.get a e)
  | _ => none
def writeC (a e : Nat) : LOp K → Option K
  | .setStateSpaceModel _ _ C => some (C.get a e)
  | _ => none
def writeBd (a e : Nat) : LOp K → Option K
  | .setDisturbances Bd _ => some (Bd.get a e)
  | _ => none
def writeDd (a e : Nat) : LOp K → Option K
  | .setDisturbances _ Dd => some (Dd.get a e)
  | _ => none
def writeWY (k a : Nat) : LOp K → Option K
  | .setObjectiveWeights OW _ _ => some (OW.get a k)
  | .setObjectiveWeightsSlice OW _ _ s => onSlice s k (OW.get a)
  | _ => none
def writeWU (k a : Nat) : LOp K → Option K
  | .setObjectiveWeights _ UW _ => some (UW.get a k)
  | .setObjectiveWeightsSlice _ UW _ s => onSlice s k (UW.get a)
  | _ => none
def writeWDu (k a : Nat) : LOp K → Option K
  | .setObjectiveWeights _ _ DW => some (DW.get a k)
  | .setObjectiveWeightsSlice _ _ DW s => onSlice s k (DW.get a)
  | _ => none
def writeXMin (k a : Nat) : LOp K → Option (Ext K)
  | .setStateBounds mn _ => some (mn.get a k)
  | .setStateBoundsSlice mn _ s => onSlice s k (mn.get a)
  | _ => none
def writeXMax (k a : Nat) : LOp K → Option (Ext K)
  | .setStateBounds _ mx => some (mx.get a k)
  | .setStateBoundsSlice _ mx s => onSlice s k (mx.get a)
  | _ => none
/-- the matrices of `setInputBounds` have `ch` columns; later steps take the last one -/
def writeUMin (k a : Nat) : LOp K → Option (Ext K)
  | .setInputBounds mn _ => some (mn.get a (min k (mn.cols - 1)))
  | .setInputBoundsSlice mn _ s => onSlice s k (mn.get a)
  | _ => none
def writeUMax (k a : Nat) : LOp K → Option (Ext K)
  | .setInputBounds _ mx => some (mx.get a (min k (mx.cols - 1)))
  | .setInputBoundsSlice _ mx s => onSlice s k (mx.get a)
  | _ => none
def writeYMin (k a : Nat) : LOp K → Option (Ext K)
  | .setOutputBounds mn _ => some (mn.get a k)
  | .setOutputBoundsSlice mn _ s => onSlice s k (mn.get a)
  | _ => none
def writeYMax (k a : Nat) : LOp K → Option (Ext K)
  | .setOutputBounds _ mx => some (mx.get a k)
  | .setOutputBoundsSlice _ mx s => onSlice s k (mx.get a)
  | _ => none
def writeSMin (k : Nat) : LOp K → Option (Ext K)
  | .setScalarConstraintSlice mn _ _ _ s => onSlice s k mn
  | .setScalarConstraintAt i mn _ _ _ => if k = i then some mn else none
  | _ => none
def writeSMax (k : Nat) : LOp K → Option (Ext K)
  | .setScalarConstraintSlice _ mx _ _ s => onSlice s k mx
  | .setScalarConstraintAt i _ mx _ _ => if k = i then some mx else none
  | _ => none
/-- the coefficients are one pair for all steps in the code -/
def writeSX (a : Nat) : LOp K → Option K
  | .setScalarConstraintSlice _ _ X _ _ => some (X.get a)
  | .setScalarConstraintAt _ _ _ X _ => some (X.get a)
  | _ => none
def writeSU (a : Nat) : LOp K → Option K
  | .setScalarConstraintSlice _ _ _ U _ => some (U.get a)
  | .setScalarConstraintAt _ _ _ _ U => some (U.get a)
  | _ => none
/-- what a user expects: the coefficients belong to the steps the call covers -/
def writeSXAt (k a : Nat) : LOp K → Option K
  | .setScalarConstraintSlice _ _ X _ s => onSlice s k (X.get a)
  | .setScalarConstraintAt i _ _ X _ => if k = i then some (X.get a) else none
  | _ => none
def writeSUAt (k a : Nat) : LOp K → Option K
  | .setScalarConstraintSlice _ _ _ U s => onSlice s k (U.get a)
  | .setScalarConstraintAt i _ _ _ U => if k = i then some (U.get a) else none
  | _ => none
def writeYRef (k a : Nat) : LOp K → Option K
  | .setReferences Y _ _ => some (Y.get a k)
  | .setReferencesSlice y _ _ s => onSlice s k (y.get a)
  | _ => none
def writeURef (k a : Nat) : LOp K → Option K
  | .setReferences _ U _ => some (U.get a k)
  | .setReferencesSlice _ u _ s => onSlice s k (u.get a)
  | _ => none
def writeDuRef (k a : Nat) : LOp K → Option K
  | .setReferences _ _ D => some (D.get a k)
  | .setReferencesSlice _ _ du s => onSlice s k (du.get a)
  | _ => none
def writeDist (k a : Nat) : LOp K → Option K
  | .setExogenousInputs M => some (M.get a k)
  | .setExogenousInputsSlice v s => onSlice s k (v.get a)
  | _ => none

/-- The configuration in which every item has the value of the last accepted call writing it. -/
def lastWriteConfig (ops : List (LOp K)) (outs : List (LOut K)) : LinConfig K where
  modelSet := lastWrite writeModelSet false ops outs
  A := fun a e => lastWrite (writeA a e) 0 ops outs
  B := fun a e => lastWrite (writeB a e) 0 ops outs
  C := fun a e => lastWrite (writeC a e) 0 ops outs
  Bd := fun a e => lastWrite (writeBd a e) 0 ops outs
  Dd := fun a e => lastWrite (writeDd a e) 0 ops outs
  wY := fun k a => lastWrite (writeWY k a) 0 ops outs
  wU := fun k a => lastWrite (writeWU k a) 0 ops outs
  wDu := fun k a => lastWrite (writeWDu k a) 0 ops outs
  xMin := fun k a => lastWrite (writeXMin k a) .negInf ops outs
  xMax := fun k a => lastWrite (writeXMax k a) .posInf ops outs
  uMin := fun k a => lastWrite (writeUMin k a) .negInf ops outs
  uMax := fun k a => lastWrite (writeUMax k a) .posInf ops outs
  yMin := fun k a => lastWrite (writeYMin k a) .negInf ops outs
  yMax := fun k a => lastWrite (writeYMax k a) .posInf ops outs
  sMin := fun k => lastWrite (writeSMin k) .negInf ops outs
  sMax := fun k => lastWrite (writeSMax k) .posInf ops outs
  sX := fun a => lastWrite (writeSX a) 0 ops outs
  sU := fun a => lastWrite (writeSU a) 0 ops outs
  yRef := fun k a => lastWrite (writeYRef k a) 0 ops outs
  uRef := fun k a => lastWrite (writeURef k a) 0 ops outs
  duRef := fun k a => lastWrite (writeDuRef k a) 0 ops outs
  dist := fun k a => lastWrite (writeDist k a) 0 ops outs

end Mpc.Spec
