import Verif.Model.Programs
import Verif.Model.Environment
import Verif.Model.Discretization
import Mathlib.Analysis.Real.Sqrt

/-
Programs which use a nonlinear controller whose functions read variables of the program, and examples/ugv_ex.cpp.
-/
namespace Mpc
open Exec

/-- a program whose user functions read variables: every call comes with the values of the variables at that time -/
abbrev EnvProgram (E : Type) (d : Dims) (K : Type) [Field K] := Program (E × EnvCall E d K) (NlOut K) K

/-- the events of such a program (IMPC.hpp:149-186, NLMPC.hpp:63-262) -/
def Handles.play {E K : Type} [Field K] [LinearOrder K] (d : Dims) (junk : Nat → K) (dyn : Bool) (p : EnvProgram E d K) (n : Nat) :
    Exec ((Handles E d K × NlMpc d K) × List (Event (E × EnvCall E d K) (NlOut K) K)) :=
  Mpc.play (do
      let m ← NlMpc.init d junk dyn
      return (({} : Handles E d K), m))
    (fun q c => q.1.step c.1 q.2 c.2) (fun q => q.2.look) p n

namespace Examples
noncomputable section

/-! ### examples/ugv_ex.cpp, over the real numbers -/

/-- dimensions (ugv_ex.cpp:14-20) -/
abbrev ugvDims : Dims := { nx := 4, nu := 2, ndu := 0, ny := 4, ph := 10, ch := 10, ineq := 22, eq := 0 }

/-- the variables which the functions capture by reference and the program changes: the preferred velocity and the obstacles,
position and radius (ugv_ex.cpp:4-8, 23-24) -/
structure UgvVars where
  vPref : Fin 2 → ℝ
  pos : Fin 2 → Fin 2 → ℝ
  radius : Fin 2 → ℝ

/-- `A` (ugv_ex.cpp:41-42): the velocity is the derivative of the position -/
def ugvA : Matrix (Fin 4) (Fin 4) ℝ := fun i j => if i.val < 2 ∧ j.val = i.val + 2 then 1 else 0
/-- `B` (ugv_ex.cpp:44-46) with `m = 1`: the input is the acceleration -/
def ugvB : Matrix (Fin 4) (Fin 2) ℝ := fun i j => if i.val = j.val + 2 then 1 / 1 else 0
/-- `Ad`, `Bd`, `Cd`, `Dd` (ugv_ex.cpp:48-57) -/
def ugvModel : Matrix (Fin 4) (Fin 4) ℝ × Matrix (Fin 4) (Fin 2) ℝ × Matrix (Fin 4) (Fin 4) ℝ × Matrix (Fin 4) (Fin 2) ℝ :=
  discretizeOutput ugvA ugvB 1 0 (1 / 10)

/-- `stateEq` (ugv_ex.cpp:59-66) -/
def ugvField (x : FVec 4 ℝ) (u : FVec 2 ℝ) : FVec 4 ℝ := fun i => (∑ j, ugvModel.1 i j * x j) + ∑ j, ugvModel.2.1 i j * u j

/-- `norm()` of a vector of two entries -/
def norm2 (v : Fin 2 → ℝ) : ℝ := Real.sqrt (v 0 * v 0 + v 1 * v 1)

/-- `normalized()` of Eigen: a zero vector stays as it is -/
def normalized2 (v : Fin 2 → ℝ) : Fin 2 → ℝ := fun i => if 0 < v 0 * v 0 + v 1 * v 1 then v i / norm2 v else v i

/-- entry `i` of the inequality constraints (ugv_ex.cpp:97-113): obstacle `i % 2` at step `i / 2` -/
def ugvIneq (e : UgvVars) (X : Traj 11 4 ℝ) (i : Fin 22) : ℝ :=
  let k : Fin 11 := ⟨i.val / 2, by omega⟩
  let j : Fin 2 := ⟨i.val % 2, by omega⟩
  e.radius j - norm2 fun a => X k (if a = 0 then 0 else 1) - e.pos j a

/-- the objective (ugv_ex.cpp:78-94) -/
def ugvCost (e : UgvVars) (X : Traj 11 4 ℝ) (U : Traj 11 2 ℝ) (s : ℝ) : ℝ :=
  (List.finRange 11).foldl (fun c k => c
    + 1000 * ((X k 2 - e.vPref 0) * (X k 2 - e.vPref 0) + (X k 3 - e.vPref 1) * (X k 3 - e.vPref 1))
    + 1 / 100 * (U k 0 * U k 0 + U k 1 * U k 1)) 0
  + 1 / 100000 * s * s

/-- the obstacles after ugv_ex.cpp:119-123 -/
def ugvObstacles (v : Fin 2 → ℝ) : UgvVars :=
  { vPref := v, pos := fun j a => if a = 0 then (if j = 0 then 2 else 1) else 1, radius := fun _ => 3 / 10 }

/-- the calls before the loop (ugv_ex.cpp:28-136), with the variables at that time: `e0` are their values before they are set;
`tol1`, `tol2` are the default tolerances after conversion to `float`, `a1`, `a2`, `a3` tell whether NLopt accepts the
functions. `setLoggerLevel` has no effect on results (C91). -/
def ugvSetup (e0 : UgvVars) (tol1 tol2 : ℝ) (a1 a2 a3 : Bool) : List (UgvVars × EnvCall UgvVars ugvDims ℝ) :=
  [ (e0, .setStateSpaceFunction (fun _ x u _ => ugvField x u) tol1 a1),
    (e0, .setOutputFunction fun _ _ x u _ i => (∑ j, ugvModel.2.2.1 i j * x j) + ∑ j, ugvModel.2.2.2 i j * u j),
    (e0, .setObjectiveFunction (fun e X _ U s => ugvCost e X U s) a2),
    (e0, .setIneqConFunction (fun e X _ _ _ i => ugvIneq e X i) tol2 a3),
    (ugvObstacles e0.vPref, .call (.setOptimizerParameters (.nonlinear
      { maximum_iteration := 100, relative_ftol := -1, relative_xtol := -1, hard_constraints := false, enable_warm_start := true }))) ]

/-- the commands which the program has applied: one for every `optimize` -/
def ugvApplied (past : List (Event (UgvVars × EnvCall UgvVars ugvDims ℝ) (NlOut ℝ) ℝ)) : List (Vec ℝ) :=
  past.filterMap fun e => match e.call with
    | some ((_, .optimize ..), .result r _) => some r.cmd
    | _ => none

/-- the robot after the commands (ugv_ex.cpp:116-117, 148-149) -/
def ugvPlant : List (Vec ℝ) → FVec 4 ℝ
  | [] => fun _ => 0
  | u :: us => ugvField (ugvPlant us) fun b => u.get b

/-- the way to the reference position, `yref - m_x.segment(0, 2)` (ugv_ex.cpp:126, 158) -/
def ugvWay (x : FVec 4 ℝ) : Fin 2 → ℝ := fun a => 2 - x (if a = 0 then 0 else 1)

/-- the preferred velocity: what was in memory (`v0`) before the first turn, then as set at the end of each turn
(ugv_ex.cpp:158; `speed = 1`) -/
def ugvPref (v0 : Fin 2 → ℝ) : List (Vec ℝ) → Fin 2 → ℝ
  | [] => v0
  | us => fun a => normalized2 (ugvWay (ugvPlant us)) a * 1

/-- what the solver does, with every evaluation in environment `e`; the functions do not throw -/
def ugvVisits (e : UgvVars) (s : SolverRun ℝ) : List (UgvVars × NlVisit ℝ) := s.evaluations.map fun c => (e, .returns c)

/-- how the solver ends -/
def ugvEnding : NlOutcome ℝ → NlEnding ℝ
  | .threw => .solverThrows
  | .answered z v c _ => .returns z v c

open Classical in
/-- the loop (ugv_ex.cpp:138-166): 150 turns at most -/
def ugvLoop (e0 : UgvVars) (solver : Nat → SolverRun ℝ) : EnvProgram UgvVars ugvDims ℝ := fun past =>
  let us := ugvApplied past
  let x := ugvPlant us
  if us.length ≥ 150 ∨ (0 < us.length ∧ norm2 (ugvWay x) < 5 / 100) then none
  else
    let s := solver us.length
    let e := ugvObstacles (ugvPref e0.vPref us)
    let u := match us with
      | u :: _ => u
      | [] => ⟨2, fun _ => 0⟩
    some (e, .optimize (Vec.ofF x) u (ugvVisits e s) (ugvEnding s.outcome) s.junk)

/-- the program -/
def ugv (e0 : UgvVars) (tol1 tol2 : ℝ) (a1 a2 a3 : Bool) (solver : Nat → SolverRun ℝ) : EnvProgram UgvVars ugvDims ℝ :=
  script (ugvSetup e0 tol1 tol2 a1 a2 a3) (ugvLoop e0 solver)

end
end Examples
end Mpc
