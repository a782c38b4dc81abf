import Verif.Basic.Eigen
import Verif.Basic.Ext
import Verif.Model.Types

/-
Model of /repo/include/mpc/LMPC/ProblemBuilder.hpp, function by function.

Simplifications:
* numbers are elements of a type `K` with addition, multiplication and negation: a field (exact arithmetic) or floating-point
  numbers (Rounding.lean); bounds are `Ext K`;
* `checkOrQuit()` is not repeated here: a builder value exists only after `onInit` (see Component.lean);
* the argument matrices carry their run-time sizes, a wrong size being a fault exactly where Eigen checks it
  (with compile-time sizes the C++ type system excludes those cases).
-/
namespace Mpc

open Exec

/-- State of a `ProblemBuilder` (ProblemBuilder.hpp:828-858). `uninit` stands for the arbitrary contents
of memory that the code allocates without initialising. -/
structure Builder (K : Type) where
  d : Dims
  uninit : Nat → Nat → K
  ssA : Mat K
  ssB : Mat K
  ssC : Mat K
  ssBv : Mat K
  ssDv : Mat K
  wOutput : Mat K
  wU : Mat K
  wDeltaU : Mat K
  minX : Mat (Ext K)
  maxX : Mat (Ext K)
  minY : Mat (Ext K)
  maxY : Mat (Ext K)
  minU : Mat (Ext K)
  maxU : Mat (Ext K)
  sMin : Vec (Ext K)
  sMax : Vec (Ext K)
  sMultiplier : Mat K
  leq : Vec K
  ueq : Vec K
  lineq : Vec (Ext K)
  uineq : Vec (Ext K)
  ineqOffset : Vec K
  P : Mat K
  q : Vec K
  A : Mat K
  l : Vec (Ext K)
  u : Vec (Ext K)

namespace Builder
variable {K : Type} [Zero K] [One K] [Add K] [Mul K] [Neg K]

/-- The quadratic term (ProblemBuilder.hpp:644-668). The pair is (`wExtendedState`, `mpcProblem.P`). -/
def buildP (b : Builder K) : Exec (Mat K) := do
  let d := b.d
  let w0 : Mat K := Mat.const (d.nu + d.ny) (d.nu + d.ny) 0
  let P0 : Mat K := Mat.const b.P.rows b.P.cols 0
  let (_, P) ← forRange (d.ph + 1) (w0, P0) fun i (w, P) => do
    let co ← b.wOutput.col i
    let w ← w.setBlock 0 0 d.ny d.ny co.asDiagonal
    let cu ← b.wU.col i
    let w ← w.setBlock d.ny d.ny d.nu d.nu cu.asDiagonal
    let t ← b.ssC.transpose.mul w
    let t ← t.mul b.ssC
    let P ← P.setBlock (i * (d.nu + d.nx)) (i * (d.nu + d.nx)) (d.nu + d.nx) (d.nu + d.nx) t
    if i < d.ph then
      let cd ← b.wDeltaU.col i
      let P ← P.setBlock ((d.ph + 1) * (d.nu + d.nx) + i * d.nu) ((d.ph + 1) * (d.nu + d.nx) + i * d.nu)
        d.nu d.nu cd.asDiagonal
      return (w, P)
    else
      return (w, P)
  return P

/-- The dynamics rows `Aeq` (ProblemBuilder.hpp:670-702). -/
def buildAeq (b : Builder K) : Exec (Mat K) := do
  let d := b.d
  let Aeq : Mat K := ⟨(d.ph + 1) * (d.nu + d.nx), (d.ph + 1) * (d.nu + d.nx) + d.ph * d.nu, b.uninit⟩
  let augId : Mat K := Mat.const (d.ph + 1) (d.ph + 1) 0
  let augId ← augId.setBlockIdentity 1 0 d.ph d.ph
  let predHId : Mat K := Mat.identity (d.ph + 1) (d.ph + 1)
  let extSpaceId : Mat K := Mat.identity (d.nu + d.nx) (d.nu + d.nx)
  let t ← (predHId.kron extSpaceId.neg).add (augId.kron b.ssA)
  let Aeq ← Aeq.setBlock 0 0 ((d.ph + 1) * (d.nu + d.nx)) ((d.ph + 1) * (d.nu + d.nx)) t
  let idenBd : Mat K := Mat.const (d.ph + 1) d.ph 0
  let idenBd ← idenBd.setBlockIdentity 1 0 d.ph d.ph
  Aeq.setBlock 0 ((d.ph + 1) * (d.nu + d.nx)) ((d.ph + 1) * (d.nu + d.nx)) (d.ph * d.nu) (idenBd.kron b.ssB)

/-- The inequality rows `Aineq` (ProblemBuilder.hpp:704-726, 767-773, 795-801). The interleaved writes to
`lineq`/`uineq` do not touch `Aineq` and are in `buildBounds`. -/
def buildAineq (b : Builder K) : Exec (Mat K) := do
  let d := b.d
  let nS := (d.ph + 1) * (d.nu + d.nx)
  let Aineq : Mat K := Mat.const (nS + ((d.ph + 1) * d.ny + d.ph * d.nu + (d.ph + 1))) (nS + d.ph * d.nu) 0
  let Aineq ← Aineq.setBlockIdentity 0 0 nS nS
  let predHId : Mat K := Mat.identity (d.ph + 1) (d.ph + 1)
  let c ← b.ssC.middleRows 0 d.ny
  let Aineq ← Aineq.setBlock nS 0 ((d.ph + 1) * d.ny) nS (predHId.kron c)
  let Aineq ← Aineq.setBlockIdentity (nS + (d.ph + 1) * d.ny) nS (d.ph * d.nu) (d.ph * d.nu)
  Aineq.setBlock (nS + (d.ph + 1) * d.ny + d.ph * d.nu) 0 (d.ph + 1) nS b.sMultiplier

/-- One side of the extended-state bounds: `eMinX` from `minX`, `minU` (ProblemBuilder.hpp:728-749). -/
def extBounds (d : Dims) (uninit : Nat → Ext K) (X U : Mat (Ext K)) : Exec (Vec (Ext K)) :=
  forRange (d.ph + 1) (⟨(d.ph + 1) * (d.nu + d.nx), uninit⟩ : Vec (Ext K)) fun i e => do
    let tmp ← (if i = d.ph then U.col (i - 1) else U.col i)
    let cx ← X.col i
    let v ← Vec.comma (d.nu + d.nx) cx tmp
    e.setSeg (i * (d.nu + d.nx)) (d.nu + d.nx) v

/-- The increment rows of one bound vector (ProblemBuilder.hpp:775-793): `0` after the control horizon,
infinite (`inf`) before. -/
def incrementBounds (d : Dims) (inf : Ext K) (v : Vec (Ext K)) : Exec (Vec (Ext K)) :=
  forRange d.ph v fun i v => do
    let m : Ext K := if i > d.ch then .fin 0 else inf
    v.setSeg ((d.ph + 1) * (d.nu + d.nx) + (d.ph + 1) * d.ny + i * d.nu) d.nu (Vec.const d.nu m)

/-- One inequality bound vector, `lineq` or `uineq` (ProblemBuilder.hpp:728-765, 775-793, 803-809). -/
def buildBound (d : Dims) (uninit : Nat → Ext K) (inf : Ext K) (old : Vec (Ext K)) (X U Y : Mat (Ext K))
    (s : Vec (Ext K)) : Exec (Vec (Ext K)) := do
  let nS := (d.ph + 1) * (d.nu + d.nx)
  let e ← extBounds d uninit X U
  let v ← old.setSeg 0 nS e
  let v ← v.setSeg nS ((d.ph + 1) * d.ny) Y.dataVec
  let v ← incrementBounds d inf v
  v.setSeg (nS + (d.ph + 1) * d.ny + d.ph * d.nu) (d.ph + 1) s

/-- `buildTimeInvariantTems` (ProblemBuilder.hpp:642-825); always returns `true`. The independent statement
groups are executed one after the other (they do not read each other's results). -/
def build (b : Builder K) : Exec (Builder K × Bool) := do
  let d := b.d
  let P ← b.buildP
  let Aeq ← b.buildAeq
  let Aineq ← b.buildAineq
  let lineq ← buildBound d (fun i => .fin (b.uninit i 0)) .negInf b.lineq b.minX b.minU b.minY b.sMin
  let uineq ← buildBound d (fun i => .fin (b.uninit i 1)) .posInf b.uineq b.maxX b.maxU b.maxY b.sMax
  let A : Mat K := Mat.const b.A.rows b.A.cols 0
  let A ← A.setBlock 0 0 ((d.ph + 1) * (d.nu + d.nx)) ((d.ph + 1) * (d.nu + d.nx) + d.ph * d.nu) Aeq
  let A ← A.setBlock ((d.ph + 1) * (d.nu + d.nx)) 0
    ((d.ph + 1) * (d.nu + d.nx) + ((d.ph + 1) * d.ny + d.ph * d.nu) + (d.ph + 1))
    ((d.ph + 1) * (d.nu + d.nx) + d.ph * d.nu) Aineq
  return ({ b with P := P, A := A, lineq := lineq, uineq := uineq }, true)

/-- The members after the resizing and default assignments of `onInit` (ProblemBuilder.hpp:88-168),
before the call of `buildTimeInvariantTems`. `ineq_offset` is left uninitialised by the code. -/
def blank (d : Dims) (uninit : Nat → Nat → K) : Builder K where
  d := d
  uninit := uninit
  ssA := Mat.const (d.nu + d.nx) (d.nu + d.nx) 0
  ssB := Mat.const (d.nu + d.nx) d.nu 0
  ssC := Mat.const (d.nu + d.ny) (d.nu + d.nx) 0
  ssBv := Mat.const (d.nu + d.nx) d.ndu 0
  ssDv := Mat.const (d.nu + d.ny) d.ndu 0
  wOutput := Mat.const d.ny (d.ph + 1) 0
  wU := Mat.const d.nu (d.ph + 1) 0
  wDeltaU := Mat.const d.nu d.ph 0
  minX := Mat.const d.nx (d.ph + 1) .negInf
  maxX := Mat.const d.nx (d.ph + 1) .posInf
  minY := Mat.const d.ny (d.ph + 1) .negInf
  maxY := Mat.const d.ny (d.ph + 1) .posInf
  minU := Mat.const d.nu d.ph .negInf
  maxU := Mat.const d.nu d.ph .posInf
  sMin := Vec.const (d.ph + 1) .negInf
  sMax := Vec.const (d.ph + 1) .posInf
  sMultiplier := Mat.const (d.ph + 1) ((d.ph + 1) * (d.nu + d.nx)) 0
  leq := Vec.const ((d.ph + 1) * (d.nu + d.nx)) 0
  ueq := Vec.const ((d.ph + 1) * (d.nu + d.nx)) 0
  lineq := Vec.const ((d.ph + 1) * (d.nu + d.nx) + ((d.ph + 1) * d.ny + d.ph * d.nu + (d.ph + 1))) (.fin 0)
  uineq := Vec.const ((d.ph + 1) * (d.nu + d.nx) + ((d.ph + 1) * d.ny + d.ph * d.nu + (d.ph + 1))) (.fin 0)
  ineqOffset := ⟨(d.ph + 1) * (d.nu + d.nx) + ((d.ph + 1) * d.ny + d.ph * d.nu + (d.ph + 1)), fun i => uninit i 2⟩
  P := Mat.const ((d.ph + 1) * (d.nu + d.nx) + d.ph * d.nu) ((d.ph + 1) * (d.nu + d.nx) + d.ph * d.nu) 0
  q := Vec.const ((d.ph + 1) * (d.nu + d.nx) + d.ph * d.nu) 0
  A := Mat.const ((d.ph + 1) * (d.nu + d.nx) + (d.ph + 1) * (d.nu + d.nx)
        + ((d.ph + 1) * d.ny + d.ph * d.nu + (d.ph + 1))) ((d.ph + 1) * (d.nu + d.nx) + d.ph * d.nu) 0
  l := Vec.const ((d.ph + 1) * (d.nu + d.nx) + ((d.ph + 1) * (d.nu + d.nx)
        + ((d.ph + 1) * d.ny + d.ph * d.nu) + (d.ph + 1))) (.fin 0)
  u := Vec.const ((d.ph + 1) * (d.nu + d.nx) + ((d.ph + 1) * (d.nu + d.nx)
        + ((d.ph + 1) * d.ny + d.ph * d.nu) + (d.ph + 1))) (.fin 0)

/-- `onInit` (ProblemBuilder.hpp:88-172); the result of `buildTimeInvariantTems` is ignored there. -/
def onInit (d : Dims) (uninit : Nat → Nat → K) : Exec (Builder K) := do
  let (b, _) ← (blank d uninit).build
  return b

/-- `setStateModel` (ProblemBuilder.hpp:184-211) -/
def setStateModel (b : Builder K) (A B C : Mat K) : Exec (Builder K × Bool) := do
  let d := b.d
  let ssA ← b.ssA.setBlock 0 0 d.nx d.nx A
  let ssA ← ssA.setBlock 0 d.nx d.nx d.nu B
  let ssA ← ssA.setBlockZero d.nx 0 d.nu d.nx
  let ssA ← ssA.setBlockIdentity d.nx d.nx d.nu d.nu
  let ssB ← b.ssB.setBlock 0 0 d.nx d.nu B
  let ssB ← ssB.setBlockIdentity d.nx 0 d.nu d.nu
  let ssC ← b.ssC.setBlock 0 0 d.ny d.nx C
  let ssC ← ssC.setBlockIdentity d.ny d.nx d.nu d.nu
  build { b with ssA := ssA, ssB := ssB, ssC := ssC }

/-- `setExogenousInput` (ProblemBuilder.hpp:222-236) -/
def setExogenousInput (b : Builder K) (Bd Dd : Mat K) : Exec (Builder K × Bool) := do
  let d := b.d
  let ssBv : Mat K := Mat.const b.ssBv.rows b.ssBv.cols 0
  let ssBv ← ssBv.setBlock 0 0 d.nx d.ndu Bd
  let ssDv : Mat K := Mat.const b.ssDv.rows b.ssDv.cols 0
  let ssDv ← ssDv.setBlock 0 0 d.ny d.ndu Dd
  build { b with ssBv := ssBv, ssDv := ssDv }

/-- Pattern `m.block(0, 1, n, ph()) = M; m.col(0) = M.col(0);` of the whole-horizon setters. -/
def shiftedAssign {α : Type} (m M : Mat α) (n ph : Nat) : Exec (Mat α) := do
  let m ← m.setBlock 0 1 n ph M
  let c ← M.col 0
  m.setCol 0 c

/-- `setObjective`, whole horizon (ProblemBuilder.hpp:247-263). `wDeltaU = DeltaUWeight` resizes. -/
def setObjective (b : Builder K) (OW UW DW : Mat K) : Exec (Builder K × Bool) := do
  let d := b.d
  let wOutput ← shiftedAssign b.wOutput OW d.ny d.ph
  let wU ← shiftedAssign b.wU UW d.nu d.ph
  build { b with wOutput := wOutput, wU := wU, wDeltaU := DW }

/-- Pattern `m.block(0, index + 1, n, 1) = v; if (index == 0) m.col(0) = v;` of the indexed setters;
`index + 1` is computed in `unsigned int`. -/
def indexAssign {α : Type} (m : Mat α) (index n : Nat) (v : Vec α) : Exec (Mat α) := do
  let m ← m.setBlock 0 (toUnsigned (index + 1)) n 1 v.asCol
  if index = 0 then m.setCol 0 v else return m

/-- `setObjective`, one step (ProblemBuilder.hpp:274-297) -/
def setObjectiveAt (b : Builder K) (index : Nat) (OW UW DW : Vec K) : Exec (Builder K × Bool) := do
  let d := b.d
  let wOutput ← indexAssign b.wOutput index d.ny OW
  let wU ← indexAssign b.wU index d.nu UW
  let wDeltaU ← b.wDeltaU.setBlock 0 index d.nu 1 DW.asCol
  build { b with wOutput := wOutput, wU := wU, wDeltaU := wDeltaU }

/-- The multiplier rows `sMultiplier.block(i, i*(nx+nu), 1, nx+nu) << X', U'`
(ProblemBuilder.hpp:329-332 and 359-362). -/
def fillMultiplier (d : Dims) (m : Mat K) (X U : Vec K) : Exec (Mat K) :=
  forRange (d.ph + 1) m fun i m => do
    let v ← Vec.comma (d.nx + d.nu) X U
    m.setBlock i (i * (d.nx + d.nu)) 1 (d.nx + d.nu) v.asRow

/-- Pattern `v[index + 1] = a; if (index == 0) v(0) = a;` -/
def indexAssignVec {α : Type} (v : Vec α) (index : Nat) (a : α) : Exec (Vec α) := do
  let v ← v.set (toUnsigned (index + 1)) a
  if index = 0 then v.set 0 a else return v

/-- `setScalarConstraint`, one step (ProblemBuilder.hpp:310-335) -/
def setScalarConstraintAt (b : Builder K) (index : Nat) (min max : Ext K) (X U : Vec K) :
    Exec (Builder K × Bool) := do
  let sMin ← indexAssignVec b.sMin index min
  let sMax ← indexAssignVec b.sMax index max
  let sM ← fillMultiplier b.d b.sMultiplier X U
  build { b with sMin := sMin, sMax := sMax, sMultiplier := sM }

/-- Pattern `v.segment(1, ph()) = M; v(0) = M(0);` -/
def shiftedAssignVec {α : Type} (v M : Vec α) (ph : Nat) : Exec (Vec α) := do
  let v ← v.setSeg 1 ph M
  let a ← M.at? 0
  v.set 0 a

/-- `setScalarConstraint`, whole horizon (ProblemBuilder.hpp:347-365) -/
def setScalarConstraint (b : Builder K) (Min Max : Vec (Ext K)) (X U : Vec K) :
    Exec (Builder K × Bool) := do
  let sMin ← shiftedAssignVec b.sMin Min b.d.ph
  let sMax ← shiftedAssignVec b.sMax Max b.d.ph
  let sM ← fillMultiplier b.d b.sMultiplier X U
  build { b with sMin := sMin, sMax := sMax, sMultiplier := sM }

/-- `setStateBounds`, whole horizon (ProblemBuilder.hpp:378-388) -/
def setStateBounds (b : Builder K) (XMin XMax : Mat (Ext K)) : Exec (Builder K × Bool) := do
  let minX ← shiftedAssign b.minX XMin b.d.nx b.d.ph
  let maxX ← shiftedAssign b.maxX XMax b.d.nx b.d.ph
  build { b with minX := minX, maxX := maxX }

/-- `setInputBounds`, whole horizon (ProblemBuilder.hpp:397-413). `UMinMat.col(ch())` is column `ch` of an
`nu x ch` matrix. -/
def setInputBounds (b : Builder K) (UMin UMax : Mat (Ext K)) : Exec (Builder K × Bool) := do
  let d := b.d
  let minU ← b.minU.setBlock 0 0 d.nu d.ch UMin
  let maxU ← b.maxU.setBlock 0 0 d.nu d.ch UMax
  if d.ch < d.ph then
    let cMin ← UMin.col d.ch
    let minU ← minU.setBlock 0 d.ch d.nu (d.ph - d.ch) cMin.asCol
    let cMax ← UMax.col d.ch
    let maxU ← maxU.setBlock 0 d.ch d.nu (d.ph - d.ch) cMax.asCol
    build { b with minU := minU, maxU := maxU }
  else
    build { b with minU := minU, maxU := maxU }

/-- `setOutputBounds`, whole horizon (ProblemBuilder.hpp:422-432) -/
def setOutputBounds (b : Builder K) (YMin YMax : Mat (Ext K)) : Exec (Builder K × Bool) := do
  let minY ← shiftedAssign b.minY YMin b.d.ny b.d.ph
  let maxY ← shiftedAssign b.maxY YMax b.d.ny b.d.ph
  build { b with minY := minY, maxY := maxY }

/-- `setStateBounds`, one step (ProblemBuilder.hpp:442-459) -/
def setStateBoundsAt (b : Builder K) (index : Nat) (XMin XMax : Vec (Ext K)) : Exec (Builder K × Bool) := do
  let minX ← indexAssign b.minX index b.d.nx XMin
  let maxX ← indexAssign b.maxX index b.d.nx XMax
  build { b with minX := minX, maxX := maxX }

/-- `setInputBounds`, one step (ProblemBuilder.hpp:469-477) -/
def setInputBoundsAt (b : Builder K) (index : Nat) (UMin UMax : Vec (Ext K)) : Exec (Builder K × Bool) := do
  let minU ← b.minU.setBlock 0 index b.d.nu 1 UMin.asCol
  let maxU ← b.maxU.setBlock 0 index b.d.nu 1 UMax.asCol
  build { b with minU := minU, maxU := maxU }

/-- `setOutputBounds`, one step (ProblemBuilder.hpp:487-504) -/
def setOutputBoundsAt (b : Builder K) (index : Nat) (YMin YMax : Vec (Ext K)) : Exec (Builder K × Bool) := do
  let minY ← indexAssign b.minY index b.d.ny YMin
  let maxY ← indexAssign b.maxY index b.d.ny YMax
  build { b with minY := minY, maxY := maxY }

/-- `mapToOutput` (ProblemBuilder.hpp:514-517) -/
def mapToOutput (b : Builder K) (x : Vec K) (dist : Vec K) : Exec (Vec K) := do
  let c ← b.ssC.block 0 0 b.d.ny b.d.nx
  let y ← c.mulVec x
  let dv ← b.ssDv.block 0 0 b.d.ny b.d.ndu
  let yd ← dv.mulVec dist
  y.add yd

/-- Loop state of `get`: (`wExtendedState`, `q`, `leq`, `ineq_offset`). -/
structure GetState (K : Type) where
  w : Mat K
  q : Vec K
  leq : Vec K
  off : Vec K

/-- Body of the loop of `get` (ProblemBuilder.hpp:554-606). -/
def getBody (b : Builder K) (yRef uRef duRef uMeas : Mat K) (i : Nat) (s : GetState K) :
    Exec (GetState K) := do
  let d := b.d
  let c := if i = 0 then 0 else i - 1
  let yR ← yRef.col c
  let uR ← uRef.col c
  let dR ← duRef.col c
  let uM ← uMeas.col c
  let eRef ← Vec.comma (d.ny + d.nu) yR uR
  let co ← b.wOutput.col i
  let w ← s.w.setBlock 0 0 d.ny d.ny co.asDiagonal
  let cu ← b.wU.col i
  let w ← w.setBlock d.ny d.ny d.nu d.nu cu.asDiagonal
  let t ← b.ssC.transpose.mul w
  let dy ← b.ssDv.mulVec uM
  let e ← eRef.neg.add dy
  let v ← t.mulVec e
  let q ← s.q.setSeg (i * (d.nx + d.nu)) (d.nx + d.nu) v
  let q ← (if i < d.ph then do
      let cd ← b.wDeltaU.col i
      let t ← cd.diagMul dR
      q.setSeg ((d.ph + 1) * (d.nu + d.nx) + i * d.nu) d.nu t.neg
    else pure q)
  let leq ← (if i > 0 then do
      let t ← b.ssBv.neg.mulVec uM
      s.leq.setSeg (i * (d.nx + d.nu)) (d.nx + d.nu) t
    else pure s.leq)
  let dv ← b.ssDv.block 0 0 d.ny d.ndu
  let t ← dv.neg.mulVec uM
  let off ← s.off.setSeg (i * d.ny + (d.ph + 1) * (d.nu + d.nx)) d.ny t
  return ⟨w, q, leq, off⟩

/-- `lineq + ineq_offset` -/
def addOffset (v : Vec (Ext K)) (o : Vec K) : Exec (Vec (Ext K)) := do
  require (v.size = o.size) .sizeMismatch
  return ⟨v.size, fun i => (v.get i).add (o.get i)⟩

/-- a vector of finite bounds -/
def finVec (v : Vec K) : Vec (Ext K) := ⟨v.size, fun i => .fin (v.get i)⟩

/-- `get` (ProblemBuilder.hpp:528-633). The returned reference to `mpcProblem` is the builder itself. -/
def get (b : Builder K) (x0 u0 : Vec K) (yRef uRef duRef uMeas : Mat K) : Exec (Builder K) := do
  let d := b.d
  let w0 : Mat K := Mat.const (d.ny + d.nu) (d.ny + d.nu) 0
  let s ← forRange (d.ph + 1)
    (⟨w0, Vec.const b.q.size 0, Vec.const b.leq.size 0, Vec.const b.ineqOffset.size 0⟩ : GetState K)
    (b.getBody yRef uRef duRef uMeas)
  let leq ← s.leq.setSeg 0 d.nx x0.neg
  let leq ← leq.setSeg d.nx d.nu u0.neg
  let ueq := leq
  let nS := (d.ph + 1) * (d.nu + d.nx)
  let l : Vec (Ext K) := Vec.const b.l.size (.fin 0)
  let u : Vec (Ext K) := Vec.const b.u.size (.fin 0)
  let l ← l.setSeg 0 nS (finVec leq)
  let u ← u.setSeg 0 nS (finVec ueq)
  let lo ← addOffset b.lineq s.off
  let l ← l.setSeg nS (nS + (d.ph + 1) * d.ny + d.ph * d.nu + (d.ph + 1)) lo
  let uo ← addOffset b.uineq s.off
  let u ← u.setSeg nS (nS + (d.ph + 1) * d.ny + d.ph * d.nu + (d.ph + 1)) uo
  return { b with q := s.q, leq := leq, ueq := ueq, ineqOffset := s.off, l := l, u := u }

end Builder
end Mpc
