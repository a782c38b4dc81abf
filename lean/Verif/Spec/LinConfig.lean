import Verif.Model.LMPC

/-
Specification of the configuration of a linear controller, as a user of the API understands it:
per prediction step registers, updated by the *accepted* calls of a history. Steps are the API steps
`0 .. ph-1`. Nothing here refers to how the code stores things.
-/
namespace Mpc.Spec

/-- What has been configured. `x.. k a` is the value for API step `k`, component `a`. -/
structure LinConfig (K : Type) where
  /-- has `setStateSpaceModel` been accepted yet? -/
  modelSet : Bool
  A : Nat → Nat → K
  B : Nat → Nat → K
  C : Nat → Nat → K
  Bd : Nat → Nat → K
  Dd : Nat → Nat → K
  wY : Nat → Nat → K
  wU : Nat → Nat → K
  wDu : Nat → Nat → K
  xMin : Nat → Nat → Ext K
  xMax : Nat → Nat → Ext K
  uMin : Nat → Nat → Ext K
  uMax : Nat → Nat → Ext K
  yMin : Nat → Nat → Ext K
  yMax : Nat → Nat → Ext K
  sMin : Nat → Ext K
  sMax : Nat → Ext K
  /-- coefficients of the scalar constraint (one pair for the whole horizon, see `c10_scalar_coefficients_violated`) -/
  sX : Nat → K
  sU : Nat → K
  yRef : Nat → Nat → K
  uRef : Nat → Nat → K
  duRef : Nat → Nat → K
  dist : Nat → Nat → K

/-- The documented defaults: no model, no weights, no limits, zero references and disturbances. -/
def LinConfig.default {K : Type} [Zero K] : LinConfig K where
  modelSet := false
  A := fun _ _ => 0
  B := fun _ _ => 0
  C := fun _ _ => 0
  Bd := fun _ _ => 0
  Dd := fun _ _ => 0
  wY := fun _ _ => 0
  wU := fun _ _ => 0
  wDu := fun _ _ => 0
  xMin := fun _ _ => .negInf
  xMax := fun _ _ => .posInf
  uMin := fun _ _ => .negInf
  uMax := fun _ _ => .posInf
  yMin := fun _ _ => .negInf
  yMax := fun _ _ => .posInf
  sMin := fun _ => .negInf
  sMax := fun _ => .posInf
  sX := fun _ => 0
  sU := fun _ => 0
  yRef := fun _ _ => 0
  uRef := fun _ _ => 0
  duRef := fun _ _ => 0
  dist := fun _ _ => 0

/-- The steps a slice covers: all of them for `{-1,-1}`, otherwise `start ≤ k < stop`. -/
def covers (s : HorizonSlice) (k : Nat) : Bool :=
  (s.start = -1 && s.stop = -1) || (s.start ≤ (k : Int) && (k : Int) < s.stop)

/-- New value `v` on the steps satisfying `p`, the old one elsewhere. -/
def upd {α : Type} (p : Nat → Bool) (v old : Nat → α) : Nat → α := fun k => if p k then v k else old k

/-- The matrix of a whole-horizon call: column `k` is step `k`. -/
def columns {α : Type} (M : Mat α) : Nat → Nat → α := fun k a => M.get a k

/-- Effect of one *accepted* call on the configuration. -/
def LinConfig.apply {K : Type} [Zero K] [One K] [Add K] [Mul K] [Neg K] [Div K] [NatCast K] (c : LinConfig K) : LOp K → LinConfig K
  | .setStateSpaceModel A B C => { c with modelSet := true, A := A.get, B := B.get, C := C.get }
  | .setDisturbances Bd Dd => { c with Bd := Bd.get, Dd := Dd.get }
  | .setObjectiveWeights OW UW DW => { c with wY := columns OW, wU := columns UW, wDu := columns DW }
  | .setObjectiveWeightsSlice OW UW DW s =>
    { c with wY := upd (covers s) (fun _ => OW.get) c.wY, wU := upd (covers s) (fun _ => UW.get) c.wU,
             wDu := upd (covers s) (fun _ => DW.get) c.wDu }
  | .setStateBounds mn mx => { c with xMin := columns mn, xMax := columns mx }
  | .setStateBoundsSlice mn mx s =>
    { c with xMin := upd (covers s) (fun _ => mn.get) c.xMin, xMax := upd (covers s) (fun _ => mx.get) c.xMax }
  | .setInputBounds mn mx =>
    -- nu x ch matrices: the steps after the control horizon take the last column
    { c with uMin := fun k a => mn.get a (min k (mn.cols - 1)), uMax := fun k a => mx.get a (min k (mx.cols - 1)) }
  | .setInputBoundsSlice mn mx s =>
    { c with uMin := upd (covers s) (fun _ => mn.get) c.uMin, uMax := upd (covers s) (fun _ => mx.get) c.uMax }
  | .setOutputBounds mn mx => { c with yMin := columns mn, yMax := columns mx }
  | .setOutputBoundsSlice mn mx s =>
    { c with yMin := upd (covers s) (fun _ => mn.get) c.yMin, yMax := upd (covers s) (fun _ => mx.get) c.yMax }
  | .setScalarConstraintSlice mn mx X U s =>
    { c with sMin := upd (covers s) (fun _ => mn) c.sMin, sMax := upd (covers s) (fun _ => mx) c.sMax,
             sX := X.get, sU := U.get }
  | .setScalarConstraintAt i mn mx X U =>
    { c with sMin := upd (· == i) (fun _ => mn) c.sMin, sMax := upd (· == i) (fun _ => mx) c.sMax,
             sX := X.get, sU := U.get }
  | .setExogenousInputs M => { c with dist := columns M }
  | .setExogenousInputsSlice v s => { c with dist := upd (covers s) (fun _ => v.get) c.dist }
  | .setReferences Y U D => { c with yRef := columns Y, uRef := columns U, duRef := columns D }
  | .setReferencesSlice y u du s =>
    { c with yRef := upd (covers s) (fun _ => y.get) c.yRef, uRef := upd (covers s) (fun _ => u.get) c.uRef,
             duRef := upd (covers s) (fun _ => du.get) c.duRef }
  | _ => c

/-- Did the call report acceptance? -/
def accepted {K : Type} : LOut K → Bool
  | .bool r => r
  | _ => false

/-- Configuration after a history, given what the calls returned (oldest first). -/
def LinConfig.after {K : Type} [Zero K] [One K] [Add K] [Mul K] [Neg K] [Div K] [NatCast K] (c : LinConfig K) : List (LOp K) → List (LOut K) → LinConfig K
  | op :: ops, out :: outs => LinConfig.after (if accepted out then c.apply op else c) ops outs
  | _, _ => c

/-- The arguments have the sizes the API's types prescribe (guaranteed by the C++ types for compile-time
dimensions), slices are pairs of `int`s and indices `unsigned int`s. -/
def Sized {K : Type} [Zero K] [One K] [Add K] [Mul K] [Neg K] [Div K] [NatCast K] (d : Dims) : LOp K → Prop
  | .setStateSpaceModel A B C =>
    (A.rows = d.nx ∧ A.cols = d.nx) ∧ (B.rows = d.nx ∧ B.cols = d.nu) ∧ (C.rows = d.ny ∧ C.cols = d.nx)
  | .setDisturbances Bd Dd => (Bd.rows = d.nx ∧ Bd.cols = d.ndu) ∧ (Dd.rows = d.ny ∧ Dd.cols = d.ndu)
  | .setObjectiveWeights OW UW DW =>
    (OW.rows = d.ny ∧ OW.cols = d.ph) ∧ (UW.rows = d.nu ∧ UW.cols = d.ph) ∧ (DW.rows = d.nu ∧ DW.cols = d.ph)
  | .setObjectiveWeightsSlice OW UW DW s => OW.size = d.ny ∧ UW.size = d.nu ∧ DW.size = d.nu ∧ s.Int32
  | .setStateBounds mn mx => (mn.rows = d.nx ∧ mn.cols = d.ph) ∧ (mx.rows = d.nx ∧ mx.cols = d.ph)
  | .setStateBoundsSlice mn mx s => mn.size = d.nx ∧ mx.size = d.nx ∧ s.Int32
  | .setInputBounds mn mx => (mn.rows = d.nu ∧ mn.cols = d.ch) ∧ (mx.rows = d.nu ∧ mx.cols = d.ch)
  | .setInputBoundsSlice mn mx s => mn.size = d.nu ∧ mx.size = d.nu ∧ s.Int32
  | .setOutputBounds mn mx => (mn.rows = d.ny ∧ mn.cols = d.ph) ∧ (mx.rows = d.ny ∧ mx.cols = d.ph)
  | .setOutputBoundsSlice mn mx s => mn.size = d.ny ∧ mx.size = d.ny ∧ s.Int32
  | .setScalarConstraintSlice _ _ X U s => X.size = d.nx ∧ U.size = d.nu ∧ s.Int32
  | .setScalarConstraintAt i _ _ X U => X.size = d.nx ∧ U.size = d.nu ∧ i < 2 ^ 32
  | .setExogenousInputs M => M.rows = d.ndu ∧ M.cols = d.ph
  | .setExogenousInputsSlice v s => v.size = d.ndu ∧ s.Int32
  | .setReferences Y U D =>
    (Y.rows = d.ny ∧ Y.cols = d.ph) ∧ (U.rows = d.nu ∧ U.cols = d.ph) ∧ (D.rows = d.nu ∧ D.cols = d.ph)
  | .setReferencesSlice y u du s => y.size = d.ny ∧ u.size = d.nu ∧ du.size = d.nu ∧ s.Int32
  | .optimize x0 u0 _ => x0.size = d.nx ∧ u0.size = d.nu
  | _ => True

/-- The slice of a call, if it has one. -/
def sliceOf {K : Type} [Zero K] [One K] [Add K] [Mul K] [Neg K] [Div K] [NatCast K] : LOp K → Option HorizonSlice
  | .setObjectiveWeightsSlice _ _ _ s => some s
  | .setStateBoundsSlice _ _ s => some s
  | .setInputBoundsSlice _ _ s => some s
  | .setOutputBoundsSlice _ _ s => some s
  | .setScalarConstraintSlice _ _ _ _ s => some s
  | .setExogenousInputsSlice _ s => some s
  | .setReferencesSlice _ _ _ s => some s
  | _ => none

/-- No slice of the call starts at a negative step, except the "whole horizon" slice. -/
def SliceNonneg {K : Type} [Zero K] [One K] [Add K] [Mul K] [Neg K] [Div K] [NatCast K] (op : LOp K) : Prop :=
  ∀ s, sliceOf op = some s → s = HorizonSlice.all ∨ 0 ≤ s.start

end Mpc.Spec
