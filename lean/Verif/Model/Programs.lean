import Verif.Model.LMPC
import Verif.Model.NLMPC

/-
Programs which use a controller: a program makes a call, looks at what it returned and at the getters, and decides what to
call next. The example programs of the repository (/repo/examples, /repo/python/examples) are such programs; what the solver
does in every `optimize` is a parameter of them.
-/
namespace Mpc
open Exec

/-- what the getters of a controller show: `getLastResult` and the matrices of `getOptimalSequence` (IMPC.hpp:173-186) -/
structure Shown (K : Type) where
  last : LResult K
  states : Mat K
  inputs : Mat K
  outputs : Mat K

/-- one event in the life of a controller: the construction (`call = none`) or a call with what it returned, and what the
getters show afterwards -/
structure Event (Op Out K : Type) where
  call : Option (Op × Out)
  shows : Shown K

/-- A program: the events so far (the latest first) determine the next call, or the end of the program. -/
abbrev Program (Op Out K : Type) := List (Event Op Out K) → Option Op

/-- the first `n` events after the construction of the controller (fewer if the program ends) -/
def play {M Op Out K : Type} (start : Exec M) (step : M → Op → Exec (M × Out)) (look : M → Shown K) (p : Program Op Out K) :
    Nat → Exec (M × List (Event Op Out K))
  | 0 => do
    let m ← start
    return (m, [⟨none, look m⟩])
  | n + 1 => do
    let q ← play start step look p n
    match p q.2 with
    | none => return q
    | some op => do
      let r ← step q.1 op
      return (r.1, ⟨some (op, r.2), look r.1⟩ :: q.2)

/-- A program which makes the calls of `setup` one after the other and then goes on with `loop`. -/
def script {Op Out K : Type} (setup : List Op) (loop : Program Op Out K) : Program Op Out K := fun past =>
  match setup[past.length - 1]? with
  | some op => some op
  | none => loop past

/-- what the getters of the linear controller show (IMPC.hpp:173-186) -/
def LMpc.look {K : Type} [Zero K] [One K] [Add K] [Mul K] [Neg K] [Div K] [NatCast K] (m : LMpc K) : Shown K :=
  ⟨m.getLastResult, m.getOptimalSequence.1, m.getOptimalSequence.2.1, m.getOptimalSequence.2.2⟩

/-- what the getters of the nonlinear controller show (IMPC.hpp:173-186) -/
def NlMpc.look {d : Dims} {K : Type} (m : NlMpc d K) : Shown K :=
  ⟨m.o.result, m.o.seqState, m.o.seqInput, m.o.seqOutput⟩

/-- a program with a linear controller -/
abbrev LProgram (K : Type) [Zero K] [One K] [Div K] [NatCast K] := Program (LOp K) (LOut K) K

/-- the events of a program with a linear controller -/
def LMpc.play {K : Type} [Zero K] [One K] [Add K] [Mul K] [Neg K] [Div K] [NatCast K] [DecidableEq K] (d : Dims) (uninit : Nat → Nat → K) (junk : Nat → Nat)
    (p : LProgram K) (n : Nat) : Exec (LMpc K × List (Event (LOp K) (LOut K) K)) :=
  Mpc.play (LMpc.new d uninit junk) LMpc.step LMpc.look p n

/-- a program with a nonlinear controller -/
abbrev NlProgram (d : Dims) (K : Type) [Field K] := Program (NlCall d K) (NlOut K) K

/-- the events of a program with a nonlinear controller -/
def NlMpc.play {K : Type} [Field K] [LinearOrder K] (d : Dims) (junk : Nat → K) (dyn : Bool) (p : NlProgram d K) (n : Nat) :
    Exec (NlMpc d K × List (Event (NlCall d K) (NlOut K) K)) :=
  Mpc.play (NlMpc.init d junk dyn) NlMpc.step NlMpc.look p n

/-- what the nonlinear solver does in one `optimize`: evaluations, outcome, and the contents of fresh memory -/
structure SolverRun (K : Type) where
  evaluations : List (NlCallback K)
  outcome : NlOutcome K
  junk : Nat → K

namespace Examples

/-! ### examples/vanderpol_ex.cpp and python/examples/example_nl.py -/

/-- dimensions (vanderpol_ex.cpp:9-15, example_nl.py:5-10) -/
abbrev vdpDims : Dims := { nx := 2, nu := 1, ndu := 0, ny := 2, ph := 10, ch := 5, ineq := 11, eq := 0 }

section
variable {K : Type} [Field K] [LinearOrder K]

/-- `stateEq` (vanderpol_ex.cpp:33-40, example_nl.py:18-23) -/
def vdpField (x : FVec 2 K) (u : K) : FVec 2 K := fun i =>
  if i = 0 then (1 - x 1 * x 1) * x 0 - x 1 + u else x 0

/-- the calls before the loop (vanderpol_ex.cpp:25-66; example_nl.py:15-55 makes them without the optimizer parameters, in
the same order); `tol1`, `tol2` are the tolerances after conversion to `float` (see Model/Tolerance.lean), `a1`, `a2`, `a3` tell whether
NLopt accepts the functions. `setLoggerLevel` has no effect on results (C91). -/
def vdpSetup (tol1 tol2 : K) (a1 a2 a3 : Bool) : List (NlCall vdpDims K) :=
  [ .setDiscretizationSamplingTime (1 / 10),
    .setOptimizerParameters (.nonlinear { maximum_iteration := 1000 }),
    .setStateSpaceFunction (fun x u _ => vdpField x (u 0)) tol1 a1,
    .setObjectiveFunction (fun X _ U _ => (List.finRange 11).foldl (fun s k => s + (X k 0 * X k 0 + X k 1 * X k 1)) 0 +
      (List.finRange 11).foldl (fun s k => s + U k 0 * U k 0) 0) a2,
    .setIneqConFunction (fun _ _ U _ i => U i 0 - 1 / 2) tol2 a3 ]

/-- the plant after the commands `us` (the latest first) (vanderpol_ex.cpp:72-73, 80-81) -/
def vdpPlant : List K → FVec 2 K
  | [] => fun i => if i = 0 then 0 else 1
  | u :: us => fun i => vdpPlant us i + vdpField (vdpPlant us) u i * (1 / 10)

/-- the commands which the program has applied: one for every `optimize` -/
def applied {d : Dims} (past : List (Event (NlCall d K) (NlOut K) K)) : List (Vec K) :=
  past.filterMap fun e => match e.call with
    | some (.optimize .., .result r _) => some r.cmd
    | _ => none

/-- the command which is passed to `optimize`: the one of the result before, at first the one of `getLastResult`
(vanderpol_ex.cpp:75-79, networked_oscillators_ex.cpp:70-74) -/
def lastCommand {d : Dims} (past : List (Event (NlCall d K) (NlOut K) K)) : Vec K :=
  match applied past with
  | u :: _ => u
  | [] => match past with
    | e :: _ => e.shows.last.cmd
    | [] => ⟨0, fun _ => 0⟩

/-- the loop (vanderpol_ex.cpp:75-86); `solver k` is what NLopt does in the `k`-th turn -/
def vdpLoop (solver : Nat → SolverRun K) : NlProgram vdpDims K := fun past =>
  let us := applied past
  let x : FVec 2 K := vdpPlant (us.map fun u => u.get 0)
  if 0 < us.length ∧ |x 0| ≤ 1 / 100 ∧ |x 1| ≤ 1 / 10 then none
  else
    let s := solver us.length
    some (.optimize (Vec.ofF x) (lastCommand past) s.evaluations s.outcome s.junk)

/-- the program -/
def vanderpol (tol1 tol2 : K) (a1 a2 a3 : Bool) (solver : Nat → SolverRun K) : NlProgram vdpDims K :=
  script (vdpSetup tol1 tol2 a1 a2 a3) (vdpLoop solver)

/-! ### examples/networked_oscillators_ex.cpp -/

/-- dimensions (networked_oscillators_ex.cpp:5-12) -/
abbrev oscDims : Dims := { nx := 8, nu := 4, ndu := 0, ny := 8, ph := 20, ch := 10, ineq := 21, eq := 0 }

/-- `oscillatorNetworkDynamics` with `mu = 1`, `k = 0.1` (networked_oscillators_ex.cpp:14-28) -/
def oscField (x : FVec 8 K) (u : FVec 4 K) : FVec 8 K := fun a =>
  let i := a.val / 2
  let x' : Nat → K := fun n => if h : n < 8 then x ⟨n, h⟩ else 0
  let u' : Nat → K := fun n => if h : n < 4 then u ⟨n, h⟩ else 0
  if a.val % 2 = 0 then x' (2 * i + 1)
  else (List.range 4).foldl (fun s j => if i ≠ j then s + 1 / 10 * (x' (2 * j) - x' (2 * i)) else s)
    (1 * (1 - x' (2 * i) * x' (2 * i)) * x' (2 * i + 1) - x' (2 * i) + u' i)

/-- the calls before the loop (networked_oscillators_ex.cpp:37-64) -/
def oscSetup (tol1 tol2 : K) (a1 a2 a3 : Bool) : List (NlCall oscDims K) :=
  [ .setDiscretizationSamplingTime (1 / 10),
    .setStateSpaceFunction (fun x u _ => oscField x u) tol1 a1,
    .setObjectiveFunction (fun X _ U _ =>
      (List.finRange 21).foldl (fun s k => (List.finRange 8).foldl (fun s a => s + X k a * X k a) s) 0 +
      (List.finRange 21).foldl (fun s k => (List.finRange 4).foldl (fun s a => s + U k a * U k a) s) 0) a2,
    .setIneqConFunction (fun _ _ U _ i => U i 0 - 1 / 2) tol2 a3 ]

/-- the plant after the commands (networked_oscillators_ex.cpp:66-68, 75-76) -/
def oscPlant : List (Vec K) → FVec 8 K
  | [] => fun i => if i = 0 then 1 else 0
  | u :: us => fun i => oscPlant us i + oscField (oscPlant us) (fun b => u.get b) i * (1 / 10)

/-- the loop (networked_oscillators_ex.cpp:70-82): ten turns at most -/
def oscLoop (solver : Nat → SolverRun K) : NlProgram oscDims K := fun past =>
  let us := applied past
  let x : FVec 8 K := oscPlant us
  if us.length ≥ 10 ∨ (0 < us.length ∧ ∀ i, |x i| < 1 / 100) then none
  else
    let s := solver us.length
    some (.optimize (Vec.ofF x) (lastCommand past) s.evaluations s.outcome s.junk)

/-- the program -/
def oscillators (tol1 tol2 : K) (a1 a2 a3 : Bool) (solver : Nat → SolverRun K) : NlProgram oscDims K :=
  script (oscSetup tol1 tol2 a1 a2 a3) (oscLoop solver)

end

/-! ### python/examples/example.py -/

section
variable {K : Type} [Field K]

/-- dimensions (example.py:5-12) -/
def pyDims : Dims := { nx := 4, nu := 2, ndu := 1, ny := 4, ph := 10, ch := 10 }

/-- a matrix given row by row -/
def rows (r c : Nat) (l : List (List K)) : Mat K := ⟨r, c, fun i j => (l.getD i []).getD j 0⟩
/-- a vector given by its entries -/
def entries (l : List K) : Vec K := ⟨l.length, fun i => l.getD i 0⟩

/-- `A` (example.py:18-21) -/
def pyA : Mat K := rows 4 4 [[1, 1 / 10, 0, 0], [0, 1, 1 / 10, 0], [0, 0, 1, 1 / 10], [0, 0, 0, 1]]
/-- `B` (example.py:23-26) -/
def pyB : Mat K := rows 4 2 [[0, 0], [0, 0], [1, 0], [0, 1]]
/-- `C` (example.py:28-31) -/
def pyC : Mat K := rows 4 4 [[1, 0, 0, 0], [0, 1, 0, 0], [0, 0, 1, 0], [0, 0, 0, 1]]

/-- the calls before the loop (example.py:33-49), `oc` being what OSQP does in the call of `optimize` -/
def pySetup (oc : OsqpOutcome K) : List (LOp K) :=
  [ .setStateSpaceModel pyA pyB pyC,
    .setObjectiveWeightsSlice (entries [1, 1, 1, 1]) (entries [1, 1]) (entries [1, 1]) HorizonSlice.all,
    .optimize (entries [2, 10, 0, 0]) (entries [0, 0]) oc ]

/-- the commands returned by the calls of `optimize` -/
def lApplied (past : List (Event (LOp K) (LOut K) K)) : List (Vec K) :=
  past.filterMap fun e => match e.call with
    | some (.optimize .., .result r _) => some r.cmd
    | _ => none

/-- the plant after the commands: `x = A @ x + B @ u` (example.py:45, 52, 63) -/
def pyPlant : List (Vec K) → Vec K
  | [] => entries [2, 10, 0, 0]
  | u :: us => ⟨4, fun i => sumTo 4 (fun j => pyA.get i j * (pyPlant us).get j) + sumTo 2 (fun j => pyB.get i j * u.get j)⟩

/-- the loop (example.py:55-66) for `turns` turns; the command of the call before the loop is not applied -/
def pyLoop (turns : Nat) (solver : Nat → OsqpOutcome K) : LProgram K := fun past =>
  let us := (lApplied past).dropLast
  if us.length ≥ turns then none
  else
    let u := match us with
      | u :: _ => u
      | [] => entries [0, 0]
    some (.optimize (pyPlant us) u (solver us.length))

/-- the program (the first outcome belongs to the call before the loop) -/
def pyExample (turns : Nat) (oc : OsqpOutcome K) (solver : Nat → OsqpOutcome K) : LProgram K :=
  script (pySetup oc) (pyLoop turns solver)

/-! ### examples/quadrotor_ex.cpp -/

/-- dimensions (quadrotor_ex.cpp:5-10) -/
def quadDims : Dims := { nx := 12, nu := 4, ndu := 4, ny := 12, ph := 10, ch := 10 }

/-- `Ad` (quadrotor_ex.cpp:20-31), in units of 1/10000 -/
def quadA : Mat K := ⟨12, 12, fun i j => (rows 12 12 (K := K)
  [[10000, 0, 0, 0, 0, 0, 1000, 0, 0, 0, 0, 0],
   [0, 10000, 0, 0, 0, 0, 0, 1000, 0, 0, 0, 0],
   [0, 0, 10000, 0, 0, 0, 0, 0, 1000, 0, 0, 0],
   [488, 0, 0, 10000, 0, 0, 16, 0, 0, 992, 0, 0],
   [0, -488, 0, 0, 10000, 0, 0, -16, 0, 0, 992, 0],
   [0, 0, 0, 0, 0, 10000, 0, 0, 0, 0, 0, 992],
   [0, 0, 0, 0, 0, 0, 10000, 0, 0, 0, 0, 0],
   [0, 0, 0, 0, 0, 0, 0, 10000, 0, 0, 0, 0],
   [0, 0, 0, 0, 0, 0, 0, 0, 10000, 0, 0, 0],
   [9734, 0, 0, 0, 0, 0, 488, 0, 0, 9846, 0, 0],
   [0, -9734, 0, 0, 0, 0, 0, -488, 0, 0, 9846, 0],
   [0, 0, 0, 0, 0, 0, 0, 0, 0, 0, 0, 9846]]).get i j / 10000⟩

/-- `Bd` (quadrotor_ex.cpp:34-45), in units of 1/10000 -/
def quadB : Mat K := ⟨12, 4, fun i j => (rows 12 4 (K := K)
  [[0, -726, 0, 726], [-726, 0, 726, 0], [-152, 152, -152, 152], [0, -6, 0, 6], [6, 0, -6, 0], [106, 106, 106, 106],
   [0, -14512, 0, 14512], [-14512, 0, 14512, 0], [-3049, 3049, -3049, 3049], [0, -236, 0, 236], [236, 0, -236, 0],
   [2107, 2107, 2107, 2107]]).get i j / 10000⟩

/-- the calls (quadrotor_ex.cpp:50-101); `pi` is `M_PI`, `oc` is what OSQP does -/
def quadCalls (pi : K) (oc : OsqpOutcome K) : List (LOp K) :=
  let f : K → Ext K := .fin
  [ .setStateSpaceModel quadA quadB (Mat.identity 12 12),
    .setObjectiveWeightsSlice (entries [0, 0, 10, 10, 10, 10, 0, 0, 0, 5, 5, 5]) (entries [1 / 10, 1 / 10, 1 / 10, 1 / 10])
      (entries [0, 0, 0, 0]) ⟨0, 10⟩,
    .setStateBoundsSlice ⟨12, fun i => if i < 2 then f (-pi / 6) else if i = 5 then f (-1) else .negInf⟩
      ⟨12, fun i => if i < 2 then f (pi / 6) else .posInf⟩ ⟨0, 10⟩,
    .setOutputBoundsSlice ⟨12, fun _ => .negInf⟩ ⟨12, fun _ => .posInf⟩ ⟨0, 10⟩,
    .setInputBoundsSlice ⟨4, fun _ => f (96 / 10 - 105916 / 10000)⟩ ⟨4, fun _ => f (13 - 105916 / 10000)⟩ ⟨0, 10⟩,
    .setReferences (Mat.const 12 10 0) (Mat.const 4 10 0) (Mat.const 4 10 0),
    .setReferencesSlice ⟨12, fun i => if i = 2 then 1 else 0⟩ ⟨4, fun _ => 0⟩ ⟨4, fun _ => 0⟩ ⟨0, 10⟩,
    .setOptimizerParameters (.linear { maximum_iteration := 250 }),
    .optimize ⟨12, fun _ => 0⟩ ⟨4, fun _ => 0⟩ oc ]

/-- the program -/
def quadrotor (pi : K) (oc : OsqpOutcome K) : LProgram K := script (quadCalls pi oc) fun _ => none

end

end Examples
end Mpc
